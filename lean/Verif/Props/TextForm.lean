import Verif.Lemmas.TextStructs
import Verif.Lemmas.TextMap
import Verif.Props.Text

/-!
# C85: text in the documented form
-/

namespace Claw.Text

open Claw.Idl (FT Out numeral)
open Claw.Tok
open Claw.Json (Scalar runes repaired Utf8 repaired_utf8 oneField)

set_option linter.unusedSimpArgs false

/-! ### Lists -/

/-- A list field of which the items are read as given tokens. -/
theorem list_read {α : Type} {x : Ext} {w : α → Bytes} {t : α → Token} {rows : List (List α)} {last : List α}
    (h : ∀ p ∈ rows.flatten ++ last, Item x (w p) (t p)) (ig : Bool) {ty : Ty} {old v : Val}
    (hv : ∀ n T R, readList T = .ok ((rows.flatten ++ last).map t, R) →
      ingestField (oneField ty) ig (n + 1) ty old { kind := .field, name := lit "x" } T = .ok (v, R)) :
    unmarshal x (oneField ty) ig 0 [old] (listText (rows.map fun r => r.map w) (last.map w)) = .ok [v] := by
  have h1 := tokens_list (x := x) (rows := rows.map fun r => r.map fun p => (w p, t p)) (last := last.map fun p => (w p, t p))
    (by
      intro r hr q hq
      obtain ⟨r', hr', rfl⟩ := List.mem_map.1 hr
      obtain ⟨p, hp, rfl⟩ := List.mem_map.1 hq
      exact h p (List.mem_append_left _ (List.mem_flatten.2 ⟨r', hr', hp⟩)))
    (by
      intro q hq
      obtain ⟨p, hp, rfl⟩ := List.mem_map.1 hq
      exact h p (List.mem_append_right _ hp)) []
  rw [List.append_nil, ← List.map_flatten, ← List.map_append] at h1
  simp only [List.map_map, Function.comp_def] at h1
  unfold unmarshal ingest
  rw [h1]
  have hk : ∀ a ∈ (rows.flatten ++ last).map t, a.kind = .field := by
    intro a ha
    obtain ⟨p, hp, rfl⟩ := List.mem_map.1 ha
    exact (h p hp).kind
  have h2 := readList_fields hk { kind := .listStart } { kind := .listEnd } rfl rfl (run x false [.root] (lines []))
  rw [ingest_of_large (r := .ok ([v], []))]
  refine ⟨4, fun n hn => ?_⟩
  obtain ⟨n, rfl⟩ : ∃ m, n = m + 4 := ⟨n - 4, by omega⟩
  rw [ingestFrom, if_neg (by decide), ingestLoop]
  have h3 : fieldIdx (oneField ty 0) (lit "x") = some 0 := rfl
  simp only [h3]
  have h4 : (oneField ty 0)[0]? = some ⟨lit "x", ty⟩ := rfl
  simp only [h4, List.getElem?_cons_zero, hv (n + 1) _ _ h2]
  rfl

/-- C85 where it holds: a list of whole numbers, over any lines, with a blank before each of them and before the closing bracket, and
with or without commas.  Missing: the documented form, without these blanks. -/
theorem C85_list_partial (x : Ext) (ig : Bool) (t : FT) (rows : List (List (Int × Bool))) (last : List (Int × Bool))
    (h : ∀ p ∈ rows.flatten ++ last, -2 ^ 63 ≤ p.1 ∧ p.1 < 2 ^ 63) :
    unmarshal x (oneField (.listNum t none)) ig 0 [.nums []]
      (listText (rows.map fun r => r.map fun p => withComma (numeral p.1) p.2) (last.map fun p => withComma (numeral p.1) p.2)) =
      .ok [.nums ((rows.flatten ++ last).map fun p => norm t (Int64.ofInt p.1).toUInt64)] :=
  list_read (t := fun p => { kind := .field, data := (Int64.ofInt p.1).toUInt64 }) (fun p hp => item_number x (h p hp) p.2) ig (by
    intro n T R hT
    rw [ingestField]
    simp only [Bool.false_eq_true, if_false, hT, appendNums, List.nil_append, List.map_map]
    rfl)

/-- C85 where it holds: booleans in such a list. -/
theorem C85_bool_list_partial (x : Ext) (ig : Bool) (rows : List (List (Bool × Bool))) (last : List (Bool × Bool)) :
    unmarshal x (oneField (.listNum .bool none)) ig 0 [.nums []]
      (listText (rows.map fun r => r.map fun p => withComma (lit (if p.1 then "true" else "false")) p.2)
        (last.map fun p => withComma (lit (if p.1 then "true" else "false")) p.2)) =
      .ok [.nums ((rows.flatten ++ last).map fun p => if p.1 then 1 else 0)] :=
  list_read (t := fun p => { kind := .field, type := .bool, data := if p.1 then 1 else 0 }) (fun p _ => item_bool x p.1 p.2) ig (by
    intro n T R hT
    rw [ingestField]
    simp only [Bool.false_eq_true, if_false, hT, appendNums, List.nil_append, List.map_map]
    congr 3
    apply List.map_congr_left
    intro p _
    rcases p with ⟨_ | _, _⟩ <;> rfl)

/-- C85 where it holds: strings without white space in such a list. -/
theorem C85_string_list_partial (x : Ext) (ig : Bool) (rows : List (List (Bytes × Bool))) (last : List (Bytes × Bool))
    (h : ∀ p ∈ rows.flatten ++ last, Utf8 p.1 ∧ ∀ r ∈ runes p.1, wide r = false) :
    unmarshal x (oneField .listStr) ig 0 [.bins []]
      (listText (rows.map fun r => r.map fun p => withComma (quoted p.1) p.2) (last.map fun p => withComma (quoted p.1) p.2)) =
      .ok [.bins ((rows.flatten ++ last).map (·.1))] :=
  list_read (t := fun p => { kind := .field, type := .string, bytes := repaired p.1 })
    (fun p hp => item_string x (h p hp).2 p.2) ig (by
    intro n T R hT
    rw [ingestField]
    simp only [Bool.false_eq_true, if_false, hT, appendBins, List.nil_append, List.map_map]
    congr 3
    apply List.map_congr_left
    intro p hp
    exact repaired_utf8 (h p hp).1)

-- `x: [ 1, 2,\n 3 ],`
example (x : Ext) (ig : Bool) : unmarshal x (oneField (.listNum .int64 none)) ig 0 [.nums []] (lit "x: [ 1, 2,\n 3 ],\n") =
    .ok [.nums [1, 2, 3]] := by
  have h : lit "x: [ 1, 2,\n 3 ],\n" = listText
      ([[(1, true), (2, true)]].map fun r => r.map fun p : Int × Bool => withComma (numeral p.1) p.2)
      ([(3, false)].map fun p : Int × Bool => withComma (numeral p.1) p.2) := by decide +kernel
  rw [h, C85_list_partial x ig .int64 _ _ (by
    intro p hp
    simp at hp
    rcases hp with rfl | rfl | rfl <;> decide)]
  rfl

/-- A field of a list, struct or map type for which the stream has a token that is no start. -/
theorem head_refused {x : Ext} {ig : Bool} {ty : Ty} (ht : hasStart ty = true) (old : Val) {text : Bytes} {tok : Token} {T : Bytes}
    (hk : tok.kind = .field) (hn : tok.name = lit "x") (hnil : tok.isNil = false)
    (h : tokens x text = { kind := .structStart, name := lit "root" } :: tok :: run x false [.root] (lines T)) :
    unmarshal x (oneField ty) ig 0 [old] text = .err := by
  unfold unmarshal ingest
  rw [h, ingest_of_large (r := .err)]
  refine ⟨4, fun n hn' => ?_⟩
  obtain ⟨n, rfl⟩ : ∃ m, n = m + 4 := ⟨n - 4, by omega⟩
  rw [ingestFrom, if_neg (by decide), ingestLoop]
  have h3 : fieldIdx (oneField ty 0) (lit "x") = some 0 := rfl
  have h4 : (oneField ty 0)[0]? = some ⟨lit "x", ty⟩ := rfl
  simp only [hk, hn, h3, h4, List.getElem?_cons_zero]
  rw [show run x false [.root] (lines T) = R x [.root] T from rfl, ingest_head ht hnil (R_head rfl T) (n + 2) (by omega)]

/-- C85 is violated: a list in the documented form, without a blank after the bracket, is refused, whatever the item and whatever
follows it. -/
theorem C85_list_refused (x : Ext) (ig : Bool) {ty : Ty} (ht : hasStart ty = true) (old : Val) (w : Bytes) (hw : Solid w) (hne : w ≠ [])
    (more T : Bytes) (hm : 10 ∉ more) (hb : more = [] ∨ ∃ r, more = 32 :: r) :
    unmarshal x (oneField ty) ig 0 [old] (lineOf (lit "[" ++ w ++ more) ++ T) = .err := by
  have hs : Solid (lit "[" ++ w) := solid_append (solid_graphic (by decide)) hw
  have hno : 10 ∉ lit "[" ++ w ++ more := by
    intro h
    rcases List.mem_append.1 h with h | h
    · exact solid_no_newline hs h
    · exact hm h
  have hk : NotKeyword (91 :: w) := by
    refine ⟨?_, ?_, ?_, ?_, ?_, ?_⟩ <;> intro h
    case refine_5 => exact hne (List.cons.inj h).2
    all_goals exact absurd (List.cons.inj h).1 (by decide)
  have hwd : ∃ ws, words (lit "[" ++ w ++ more) = (lit "[" ++ w) :: ws := by
    rcases hb with rfl | ⟨r, rfl⟩
    · rw [List.append_nil]
      exact ⟨[], words_solid hs (by simp [lit])⟩
    · exact ⟨_, words_split hs (by simp [lit]) r⟩
  obtain ⟨ws, hws⟩ := hwd
  have h1 := tokens_line x hno hws (by
    intro h
    exact absurd (List.cons.inj h).1 (by decide)) T
  rw [show lit "[" ++ w = 91 :: w from rfl, fieldValue_enum hk (by decide)] at h1
  refine head_refused (T := T) ht old ?_ ?_ ?_ h1 <;> rfl

-- `Ports: [8080, 8081, 8082],`
example (x : Ext) (ig : Bool) : unmarshal x (oneField (.listNum .int64 none)) ig 0 [.nums []] (lit "x: [8080, 8081, 8082],\n") =
    .err := by
  have := C85_list_refused x ig (ty := .listNum .int64 none) rfl (.nums []) (lit "8080,") (solid_graphic (by decide)) (by decide)
    (lit " 8081, 8082],") [] (by decide) (.inr ⟨_, rfl⟩)
  exact this

/-! ### Lists of structs -/

/-- C85 where it holds: a list of structs in the documented form, of which each is written the way `Marshal` writes it: each comes back
as it would alone.  Missing: lists in these structs, braces that are not on a line of their own. -/
theorem C85_struct_list_partial {x : Ext} {o : Opts} {env : Env} (hb : Blank o) (hx : FloatsOk x) (hna : NamedAll env)
    (hd : Distinct env) (ig : Bool) {s0 s : Nat} (h0 : env s0 = [⟨lit "x", .listStruct s⟩]) (fss : List (List Val))
    (h : ∀ fs ∈ fss, FitsAll env (env s) fs ∧ plainAll fs = true ∧ readables env (env s) fs = true) :
    unmarshal x env ig s0 [.list []]
      (lit "x: [\n" ++ (fss.flatMap fun fs => lit "{\n" ++ marshal x o env s fs ++ lit "},\n") ++ lit "],\n") =
      .ok [.list (fss.map fun fs => .obj (backFields x o env (env s) fs))] := by
  obtain ⟨N, hN⟩ := ingest_items (x := x) (o := o) (env := env) (ig := ig) hb hx hna hd fss h []
  unfold itemsText at hN
  rw [List.append_assoc]
  generalize (fss.flatMap fun fs => lit "{\n" ++ marshal x o env s fs ++ lit "},\n") ++ lit "],\n" = T at hN ⊢
  have h1 := tokens_line x (v := lit "[") (w := lit "[") (ws := []) (by decide) (by decide +kernel) (by decide) T
  have h2 : ∀ raw, fieldValue x [.root] (lit "x") raw (lit "[") ([] ++ [[10]]) =
      ([{ kind := .field, name := lit "x" }, { kind := .listStart }], some [.elems, .root]) := by
    intro raw
    unfold fieldValue
    rw [if_neg (by decide), if_neg (by decide), if_neg (by decide), if_neg (by decide), if_pos (by decide), List.nil_append,
      elemsLine, if_neg (by decide), if_pos (by decide), elemsLine]
    rfl
  rw [h2] at h1
  unfold unmarshal ingest
  rw [show lit "x: [\n" ++ T = lineOf (lit "[") ++ T from rfl, h1, ingest_of_large
    (r := .ok ([.list (fss.map fun fs => .obj (backFields x o env (env s) fs))], []))]
  refine ⟨N + 4, fun n hn => ?_⟩
  obtain ⟨n, rfl⟩ : ∃ m, n = m + 4 := ⟨n - 4, by omega⟩
  have hN := hN (n + 1) (by omega)
  show ingestFrom env ig (n + 4) s0 [.list []] (_ :: _ :: _ :: R x [.elems, .root] T) = _
  rw [ingestFrom, if_neg (by decide), ingestLoop]
  have h3 : fieldIdx (env s0) (lit "x") = some 0 := by rw [h0]; rfl
  have h4 : (env s0)[0]? = some ⟨lit "x", .listStruct s⟩ := by rw [h0]; rfl
  simp only [h3, h4, List.getElem?_cons_zero]
  rw [ingestField]
  simp only [Bool.false_eq_true, if_false, ne_eq, not_true_eq_false, hN]
  rfl

/-- Structs with a number and a string. -/
def exServer : Env := fun n => if n = 0 then [⟨lit "x", .listStruct 1⟩] else [⟨lit "port", .num .uint16 none⟩, ⟨lit "name", .str⟩]

-- two structs
example : ∀ fs ∈ [[.num 80, .bin (lit "a b")], [.num 443, .bin []]], FitsAll exServer (exServer 1) fs ∧ plainAll fs = true ∧
    readables exServer (exServer 1) fs = true := by
  intro fs hfs
  simp only [List.mem_cons, List.not_mem_nil, or_false] at hfs
  rcases hfs with rfl | rfl
  · exact ⟨.cons (.num ⟨80, rfl⟩) (.cons .str .nil), rfl, by decide +kernel⟩
  · exact ⟨.cons (.num ⟨443, rfl⟩) (.cons .str .nil), rfl, by decide +kernel⟩

/-! ### Maps -/

/-- A map field of which the entries are read as given tokens. -/
theorem map_read {x : Ext} {es : List (Bytes × Bytes × Token)}
    (h : ∀ e ∈ es, (∀ r ∈ runes e.1, wide r = false) ∧ Solid e.2.1 ∧ entryTok x (repaired e.1) e.2.1 e.2.2) (ig : Bool) {k : FT} {mv : MTy}
    {old v : Val} (hv : ∃ N, ∀ n, N ≤ n → ∀ R, ingestEntries (oneField (.map k mv)) ig n k mv old
      (es.map (·.2.2) ++ { kind := .mapEnd } :: R) = .ok (v, R)) :
    unmarshal x (oneField (.map k mv)) ig 0 [old] (mapText (es.map fun e => (e.1, e.2.1))) = .ok [v] := by
  obtain ⟨N, hN⟩ := hv
  have h1 := tokens_map h []
  rw [List.append_nil] at h1
  unfold unmarshal ingest
  rw [h1, ingest_of_large (r := .ok ([v], []))]
  refine ⟨N + 4, fun n hn => ?_⟩
  obtain ⟨n, rfl⟩ : ∃ m, n = m + 4 := ⟨n - 4, by omega⟩
  rw [ingestFrom, if_neg (by decide), ingestLoop]
  have h3 : fieldIdx (oneField (.map k mv) 0) (lit "x") = some 0 := rfl
  have h4 : (oneField (.map k mv) 0)[0]? = some ⟨lit "x", .map k mv⟩ := rfl
  simp only [h3, h4, List.getElem?_cons_zero]
  rw [ingestField]
  simp only [Bool.false_eq_true, if_false, ne_eq, not_true_eq_false, hN (n + 1) (by omega)]
  rfl

theorem entries_bool {env : Env} {ig : Bool} : ∀ (es : List (Bytes × Bool)) (old : Val), ∃ N, ∀ n, N ≤ n → ∀ R,
    ingestEntries env ig n .string (.num .bool) old
      ((es.map fun e => ({ kind := .mapEntry, keyBytes := e.1, type := .bool, data := if e.2 then 1 else 0 } : Token)) ++
        { kind := .mapEnd } :: R) =
      .ok (mergeMap .string (es.map fun e => .str e.1) (es.map fun e => .num (if e.2 then 1 else 0)) old, R) := by
  intro es
  induction es with
  | nil =>
    intro old
    refine ⟨1, fun n hn R => ?_⟩
    obtain ⟨n, rfl⟩ : ∃ m, n = m + 1 := ⟨n - 1, by omega⟩
    simp [ingestEntries, mergeMap]
  | cons e es ih =>
    intro old
    obtain ⟨N, hN⟩ := ih (mapPut .string (.str e.1) (.num (if e.2 then 1 else 0)) old)
    refine ⟨N + 1, fun n hn R => ?_⟩
    obtain ⟨n, rfl⟩ : ∃ m, n = m + 1 := ⟨n - 1, by omega⟩
    have hb : norm .bool (if e.2 then 1 else 0) = if e.2 then 1 else 0 := by cases e.2 <;> rfl
    rw [List.map_cons, List.cons_append, ingestEntries]
    simp only [reduceCtorEq, if_false, ne_eq, not_true_eq_false, tokKey, hb]
    exact hN n (by omega) R

theorem entries_num {env : Env} {ig : Bool} {t : FT} : ∀ (es : List (Bytes × UInt64)) (old : Val), ∃ N, ∀ n, N ≤ n → ∀ R,
    ingestEntries env ig n .string (.num t) old
      ((es.map fun e => ({ kind := .mapEntry, keyBytes := e.1, data := e.2 } : Token)) ++ { kind := .mapEnd } :: R) =
      .ok (mergeMap .string (es.map fun e => .str e.1) (es.map fun e => .num (norm t e.2)) old, R) := by
  intro es
  induction es with
  | nil =>
    intro old
    refine ⟨1, fun n hn R => ?_⟩
    obtain ⟨n, rfl⟩ : ∃ m, n = m + 1 := ⟨n - 1, by omega⟩
    simp [ingestEntries, mergeMap]
  | cons e es ih =>
    intro old
    obtain ⟨N, hN⟩ := ih (mapPut .string (.str e.1) (.num (norm t e.2)) old)
    refine ⟨N + 1, fun n hn R => ?_⟩
    obtain ⟨n, rfl⟩ : ∃ m, n = m + 1 := ⟨n - 1, by omega⟩
    rw [List.map_cons, List.cons_append, ingestEntries]
    simp only [reduceCtorEq, if_false, ne_eq, not_true_eq_false, tokKey]
    exact hN n (by omega) R

theorem entries_str {env : Env} {ig : Bool} : ∀ (es : List (Bytes × Bytes)) (old : Val), ∃ N, ∀ n, N ≤ n → ∀ R,
    ingestEntries env ig n .string .str old
      ((es.map fun e => ({ kind := .mapEntry, keyBytes := e.1, type := .string, bytes := e.2 } : Token)) ++ { kind := .mapEnd } :: R) =
      .ok (mergeMap .string (es.map fun e => .str e.1) (es.map fun e => .bin e.2) old, R) := by
  intro es
  induction es with
  | nil =>
    intro old
    refine ⟨1, fun n hn R => ?_⟩
    obtain ⟨n, rfl⟩ : ∃ m, n = m + 1 := ⟨n - 1, by omega⟩
    simp [ingestEntries, mergeMap]
  | cons e es ih =>
    intro old
    obtain ⟨N, hN⟩ := ih (mapPut .string (.str e.1) (.bin e.2) old)
    refine ⟨N + 1, fun n hn R => ?_⟩
    obtain ⟨n, rfl⟩ : ∃ m, n = m + 1 := ⟨n - 1, by omega⟩
    rw [List.map_cons, List.cons_append, ingestEntries]
    simp only [reduceCtorEq, if_false, ne_eq, not_true_eq_false, tokKey]
    exact hN n (by omega) R

/-- C85 where it holds: a map from strings without white space, in rising order, to whole numbers, with a blank before each colon.
Missing: the documented form, without these blanks. -/
theorem C85_map_partial (x : Ext) (ig : Bool) (t : FT) (es : List (Bytes × Int))
    (h : ∀ e ∈ es, (Utf8 e.1 ∧ ∀ r ∈ runes e.1, wide r = false) ∧ -2 ^ 63 ≤ e.2 ∧ e.2 < 2 ^ 63)
    (hr : Rising .string (es.map fun e => .str e.1)) :
    unmarshal x (oneField (.map .string (.num t))) ig 0 [.map [] []] (mapText (es.map fun e => (e.1, numeral e.2))) =
      .ok [.map (es.map fun e => .str e.1) (es.map fun e => .num (norm t (Int64.ofInt e.2).toUInt64))] := by
  have h1 := map_read (x := x) (es := es.map fun e =>
      (e.1, numeral e.2, { kind := .mapEntry, keyBytes := e.1, data := (Int64.ofInt e.2).toUInt64 }))
    (by
      intro q hq
      obtain ⟨e, he, rfl⟩ := List.mem_map.1 hq
      obtain ⟨⟨h1, h2⟩, h3⟩ := h e he
      refine ⟨h2, numText_solid (numeral_numText _), ?_⟩
      simp only [repaired_utf8 h1]
      exact entry_number x e.1 h3) ig (k := .string) (mv := .num t) (old := .map [] [])
    (v := .map (es.map fun e => .str e.1) (es.map fun e => .num (norm t (Int64.ofInt e.2).toUInt64)))
    (by
      obtain ⟨N, hN⟩ := entries_num (env := oneField (.map .string (.num t))) (ig := ig) (t := t)
        (es.map fun e => (e.1, (Int64.ofInt e.2).toUInt64)) (.map [] [])
      refine ⟨N, fun n hn R => ?_⟩
      have := hN n hn R
      simp only [List.map_map, Function.comp_def] at this ⊢
      rw [this, mergeMap_empty (by simp) hr])
  simp only [List.map_map, Function.comp_def] at h1
  exact h1

theorem entry_bool (x : Ext) (key : Bytes) (b : Bool) :
    entryTok x key (lit (if b then "true" else "false")) { kind := .mapEntry, keyBytes := key, type := .bool, data := if b then 1 else 0 } := by
  intro a st more hu hp
  unfold entryLine
  simp only [hp, Bool.not_true, Bool.false_eq_true, if_false, hu, ne_eq, not_true_eq_false, trimLast_append]
  cases b
  · rw [if_neg (by decide), if_neg (by decide), if_pos (by rfl)]
    rfl
  · rw [if_neg (by decide), if_pos (by rfl)]
    rfl

/-- C85 where it holds: such a map to booleans. -/
theorem C85_bool_map_partial (x : Ext) (ig : Bool) (es : List (Bytes × Bool))
    (h : ∀ e ∈ es, Utf8 e.1 ∧ ∀ r ∈ runes e.1, wide r = false) (hr : Rising .string (es.map fun e => .str e.1)) :
    unmarshal x (oneField (.map .string (.num .bool))) ig 0 [.map [] []]
      (mapText (es.map fun e => (e.1, lit (if e.2 then "true" else "false")))) =
      .ok [.map (es.map fun e => .str e.1) (es.map fun e => .num (if e.2 then 1 else 0))] := by
  have h1 := map_read (x := x) (es := es.map fun e => (e.1, lit (if e.2 then "true" else "false"),
      { kind := .mapEntry, keyBytes := e.1, type := .bool, data := if e.2 then 1 else 0 }))
    (by
      intro q hq
      obtain ⟨e, he, rfl⟩ := List.mem_map.1 hq
      obtain ⟨h1, h2⟩ := h e he
      refine ⟨h2, ?_, ?_⟩
      · have hF : Solid (lit "false") := solid_graphic (by decide)
        have hT : Solid (lit "true") := solid_graphic (by decide)
        cases e.2
        · exact hF
        · exact hT
      · simp only [repaired_utf8 h1]
        exact entry_bool x e.1 e.2) ig (k := .string) (mv := .num .bool) (old := .map [] [])
    (v := .map (es.map fun e => .str e.1) (es.map fun e => .num (if e.2 then 1 else 0)))
    (by
      obtain ⟨N, hN⟩ := entries_bool (env := oneField (.map .string (.num .bool))) (ig := ig) es (.map [] [])
      refine ⟨N, fun n hn R => ?_⟩
      have := hN n hn R
      simp only [List.map_map, Function.comp_def] at this ⊢
      rw [this, mergeMap_empty (by simp) hr])
  simp only [List.map_map, Function.comp_def] at h1
  exact h1

example (x : Ext) (ig : Bool) : unmarshal x (oneField (.map .string (.num .bool))) ig 0 [.map [] []]
    (lit "x: @map {\n\"a\" : true,\n\"b\" : false,\n},\n") = .ok [.map [.str (lit "a"), .str (lit "b")] [.num 1, .num 0]] := by
  have h : lit "x: @map {\n\"a\" : true,\n\"b\" : false,\n},\n" =
      mapText ([(lit "a", true), (lit "b", false)].map fun e : Bytes × Bool => (e.1, lit (if e.2 then "true" else "false"))) := by
    decide +kernel
  rw [h, C85_bool_map_partial x ig _ (by
    intro e he
    simp only [List.mem_cons, List.not_mem_nil, or_false] at he
    rcases he with rfl | rfl
    · exact ⟨Claw.Json.ascii_utf8 _ (by decide), by decide +kernel⟩
    · exact ⟨Claw.Json.ascii_utf8 _ (by decide), by decide +kernel⟩) (by
    unfold Rising
    decide +kernel)]
  rfl

/-- C85 where it holds: such a map to strings without white space. -/
theorem C85_string_map_partial (x : Ext) (ig : Bool) (es : List (Bytes × Bytes))
    (h : ∀ e ∈ es, (Utf8 e.1 ∧ ∀ r ∈ runes e.1, wide r = false) ∧ Utf8 e.2 ∧ ∀ r ∈ runes e.2, wide r = false)
    (hr : Rising .string (es.map fun e => .str e.1)) :
    unmarshal x (oneField (.map .string .str)) ig 0 [.map [] []] (mapText (es.map fun e => (e.1, quoted e.2))) =
      .ok [.map (es.map fun e => .str e.1) (es.map fun e => .bin e.2)] := by
  have h1 := map_read (x := x) (es := es.map fun e =>
      (e.1, quoted e.2, { kind := .mapEntry, keyBytes := e.1, type := .string, bytes := e.2 }))
    (by
      intro q hq
      obtain ⟨e, he, rfl⟩ := List.mem_map.1 hq
      obtain ⟨⟨h1, h2⟩, h3, h4⟩ := h e he
      refine ⟨h2, solid_quoted h4, ?_⟩
      simp only [repaired_utf8 h1]
      have := entry_string x e.1 e.2
      rw [repaired_utf8 h3] at this
      exact this) ig (k := .string) (mv := .str) (old := .map [] [])
    (v := .map (es.map fun e => .str e.1) (es.map fun e => .bin e.2))
    (by
      obtain ⟨N, hN⟩ := entries_str (env := oneField (.map .string .str)) (ig := ig) es (.map [] [])
      refine ⟨N, fun n hn R => ?_⟩
      have := hN n hn R
      simp only [List.map_map, Function.comp_def] at this ⊢
      rw [this, mergeMap_empty (by simp) hr])
  simp only [List.map_map, Function.comp_def] at h1
  exact h1

-- `x: @map {\n"a" : 1,\n"b" : -2,\n},`
example (x : Ext) (ig : Bool) : unmarshal x (oneField (.map .string (.num .int8))) ig 0 [.map [] []]
    (lit "x: @map {\n\"a\" : 1,\n\"b\" : 2,\n},\n") = .ok [.map [.str (lit "a"), .str (lit "b")] [.num 1, .num 2]] := by
  have h : lit "x: @map {\n\"a\" : 1,\n\"b\" : 2,\n},\n" =
      mapText ([(lit "a", 1), (lit "b", 2)].map fun e : Bytes × Int => (e.1, numeral e.2)) := by decide +kernel
  rw [h, C85_map_partial x ig .int8 _ (by
    intro e he
    simp only [List.mem_cons, List.not_mem_nil, or_false] at he
    rcases he with rfl | rfl
    · exact ⟨⟨Claw.Json.ascii_utf8 _ (by decide), by decide +kernel⟩, by decide⟩
    · exact ⟨⟨Claw.Json.ascii_utf8 _ (by decide), by decide +kernel⟩, by decide⟩) (by
    unfold Rising
    decide +kernel)]
  rfl

/-- C85 is violated: a map in the documented form, with the colon at the key, is refused, whatever the value and whatever follows. -/
theorem C85_map_refused (x : Ext) (ig : Bool) (k : FT) (mv : MTy) (old : Val) (key : Bytes) (hk : ∀ r ∈ runes key, wide r = false)
    (more : Bytes) (hm : 10 ∈ more) :
    unmarshal x (oneField (.map k mv)) ig 0 [old] (lit "x: @map {\n" ++ (quoted key ++ lit ": " ++ more)) = .err := by
  have h1 := run_entry (x := x) (fr := [.root]) (ind := []) (by intro c hc; simp at hc) hk hm
  rw [List.nil_append] at h1
  have h2 := tokens_line x (v := lit "@map {") (w := lit "@map") (ws := [lit "{"]) (by decide) (by decide +kernel) (by decide)
    (quoted key ++ lit ": " ++ more)
  have h3 : ∀ raw, fieldValue x [.root] (lit "x") raw (lit "@map") ([lit "{"] ++ [[10]]) =
      ([{ kind := .field, name := lit "x", type := .map }, { kind := .mapStart }], some [.map, .root]) := by
    intro raw
    unfold fieldValue
    rw [if_neg (by decide), if_neg (by decide), if_neg (by decide), if_neg (by decide), if_neg (by decide), if_pos (by decide)]
    simp only [List.singleton_append]
    rw [if_pos (by decide)]
  rw [h3] at h2
  unfold unmarshal
  rw [show lit "x: @map {\n" = lineOf (lit "@map {") from rfl, h2]
  show ingest _ _ _ _ (_ :: _ :: _ :: R x [.map, .root] (quoted key ++ lit ": " ++ more)) = _
  rw [h1]
  rfl

/-! ### Other values -/

/-- The tokens of a text with the line `x: w,` for a word that is none of the others. -/
theorem tokens_word (x : Ext) {w : Bytes} (hs : Solid w) (hc : ∀ c r, w = c :: r → nameByte c) (T : Bytes) :
    tokens x (lineOf (w ++ [44]) ++ T) = { kind := .structStart, name := lit "root" } ::
      { kind := .field, name := lit "x", isEnum := true, enumName := w, bytes := w } :: run x false [.root] (lines T) := by
  have hs' : Solid (w ++ [44]) := solid_append hs (solid_graphic (by simp))
  have hne : w ++ [44] ≠ [10] := by
    intro h
    have := solid_no_newline hs'
    rw [h] at this
    simp at this
  rw [tokens_line x (solid_no_newline hs') (words_solid hs' (by simp)) hne T, fieldValue_word hc]
  rfl

/-- C85 is violated: `true`, with the comma of the documented form, is read as false. -/
theorem C85_true_lost (x : Ext) (ig : Bool) (old : UInt64) :
    unmarshal x (oneField (.num .bool none)) ig 0 [.num old] (lit "x: true,\n") = .ok [.num 0] := by
  have h := tokens_word x (w := lit "true") (solid_graphic (by decide)) (by rintro c r ⟨⟩; decide) []
  unfold unmarshal
  rw [show lit "x: true,\n" = lineOf (lit "true" ++ [44]) ++ [] from rfl, h]
  rfl

/-- C85 where it holds: `true` and `false` without a comma, and `null` without a comma for a list, a struct or a map, which leaves the
field as it is. -/
theorem C85_bool_partial (x : Ext) (ig : Bool) (old : UInt64) :
    unmarshal x (oneField (.num .bool none)) ig 0 [.num old] (lit "x: true\n") = .ok [.num 1] ∧
    unmarshal x (oneField (.num .bool none)) ig 0 [.num old] (lit "x: false\n") = .ok [.num 0] ∧
    ∀ (ty : Ty) (v : Val), hasStart ty = true → unmarshal x (oneField ty) ig 0 [v] (lit "x: null\n") = .ok [v] := by
  refine ⟨?_, ?_, fun ty v hty => ?_⟩
  · have h := tokens_line x (v := lit "true") (w := lit "true") (ws := []) (by decide) (by decide +kernel) (by decide) []
    unfold unmarshal
    rw [show lit "x: true\n" = lineOf (lit "true") ++ [] from rfl, h]
    rfl
  · have h := tokens_line x (v := lit "false") (w := lit "false") (ws := []) (by decide) (by decide +kernel) (by decide) []
    unfold unmarshal
    rw [show lit "x: false\n" = lineOf (lit "false") ++ [] from rfl, h]
    rfl
  · have h := tokens_line x (v := lit "null") (w := lit "null") (ws := []) (by decide) (by decide +kernel) (by decide) []
    unfold unmarshal
    rw [show lit "x: null\n" = lineOf (lit "null") ++ [] from rfl, h]
    cases ty <;> simp only [hasStart, Bool.false_eq_true] at hty <;> rfl

/-- C85 is violated: `null`, with the comma of the documented form, becomes the string "null" in a string field. -/
theorem C85_null_string (x : Ext) (ig : Bool) (old : Bytes) :
    unmarshal x (oneField .str) ig 0 [.bin old] (lit "x: null,\n") = .ok [.bin (lit "null")] := by
  have h := tokens_word x (w := lit "null") (solid_graphic (by decide)) (by rintro c r ⟨⟩; decide) []
  unfold unmarshal
  rw [show lit "x: null,\n" = lineOf (lit "null" ++ [44]) ++ [] from rfl, h]
  rfl

/-- C85 is violated: `null`, with the comma of the documented form, is refused for a list, a struct or a map, whatever follows. -/
theorem C85_null_refused (x : Ext) (ig : Bool) {ty : Ty} (ht : hasStart ty = true) (old : Val) (T : Bytes) :
    unmarshal x (oneField ty) ig 0 [old] (lit "x: null,\n" ++ T) = .err := by
  have h := tokens_word x (w := lit "null") (solid_graphic (by decide)) (by rintro c r ⟨⟩; decide) T
  rw [show lit "x: null,\n" ++ T = lineOf (lit "null" ++ [44]) ++ T from rfl]
  refine head_refused (T := T) ht old ?_ ?_ ?_ h <;> rfl

/-- C85 is violated: a hexadecimal number for a number field is read as 0, whatever its digits. -/
theorem C85_hex_number_lost (x : Ext) (ig : Bool) (t : FT) (old : UInt64) (b : Bytes) :
    unmarshal x (oneField (.num t none)) ig 0 [.num old] (lineOf (lit "0x" ++ Claw.Json.hexOf b ++ [44])) = .ok [.num (norm t 0)] := by
  have hs : Solid (lit "0x" ++ Claw.Json.hexOf b ++ [44]) :=
    solid_append (solid_append (solid_graphic (by decide)) (solid_graphic fun c hc => by have := hexOf_bytes c hc; omega)) (solid_graphic (by simp))
  have h := tokens_line x (solid_no_newline hs) (words_solid hs (by simp)) (by
    intro h
    have := congrArg List.head? h
    revert this
    simp [lit]) []
  rw [fieldValue_hex, List.append_nil] at h
  unfold unmarshal
  rw [h]
  rfl

/-- Two numbers. -/
def twoFields (t : FT) : Env := fun _ => [⟨lit "x", .num t none⟩, ⟨lit "y", .num t none⟩]

/-- C85 is violated: the second of two fields on one line is ignored. -/
theorem C85_second_field_lost (x : Ext) (ig : Bool) (t : FT) (n m : Int) (hn : -2 ^ 63 ≤ n ∧ n < 2 ^ 63) (a b : UInt64) :
    unmarshal x (twoFields t) ig 0 [.num a, .num b] (lineOf (numeral n ++ [44] ++ 32 :: (lit "y: " ++ numeral m ++ [44]))) =
      .ok [.num (norm t (Int64.ofInt n).toUInt64), .num b] := by
  have hno : 10 ∉ numeral n ++ [44] ++ 32 :: (lit "y: " ++ numeral m ++ [44]) := by
    have h1 := solid_no_newline (number_solid n)
    have h2 := solid_no_newline (number_solid m)
    simp only [List.mem_append, List.mem_cons, List.not_mem_nil, or_false, not_or] at h1 h2 ⊢
    exact ⟨h1, by decide, ⟨by decide, h2.1⟩, by decide⟩
  have h := tokens_line x hno (words_split (number_solid n) (by simp) _) (number_ne n) []
  rw [fieldValue_number (numeral_numText n), numberTok_numeral, if_pos hn, List.append_nil] at h
  unfold unmarshal
  rw [h]
  rfl

/-- C85 is violated: an Any in the documented form is refused, whatever is in its parentheses and whatever follows. -/
theorem C85_any_refused (x : Ext) (ig : Bool) (old : Val) (w : Bytes) (hw : Solid w) (more T : Bytes) (hm : 10 ∉ more)
    (hb : more = [] ∨ ∃ r, more = 32 :: r) :
    unmarshal x (oneField .any) ig 0 [old] (lineOf (lit "@any(" ++ w ++ more) ++ T) = .err := by
  have hs : Solid (lit "@any(" ++ w) := solid_append (solid_graphic (by decide)) hw
  have hno : 10 ∉ lit "@any(" ++ w ++ more := by
    intro h
    rcases List.mem_append.1 h with h | h
    · exact solid_no_newline hs h
    · exact hm h
  have hk : NotKeyword (64 :: (lit "any(" ++ w)) := by
    refine ⟨?_, ?_, ?_, ?_, ?_, ?_⟩ <;> intro h
    case refine_6 =>
      exact absurd (List.cons.inj (List.cons.inj h).2).1 (by decide)
    all_goals exact absurd (List.cons.inj h).1 (by decide)
  have hwd : ∃ ws, words (lit "@any(" ++ w ++ more) = (lit "@any(" ++ w) :: ws := by
    rcases hb with rfl | ⟨r, rfl⟩
    · rw [List.append_nil]
      exact ⟨[], words_solid hs (by simp [lit])⟩
    · exact ⟨_, words_split hs (by simp [lit]) r⟩
  obtain ⟨ws, hws⟩ := hwd
  have h1 := tokens_line x hno hws (by
    intro h
    exact absurd (List.cons.inj h).1 (by decide)) T
  rw [show lit "@any(" ++ w = 64 :: (lit "any(" ++ w) from rfl, fieldValue_enum hk (by decide)] at h1
  have hne : trimLast 44 (64 :: (lit "any(" ++ w)) ≠ [] := by
    unfold trimLast
    split <;> simp [lit]
  unfold unmarshal ingest
  rw [show lit "@any(" ++ w = 64 :: (lit "any(" ++ w) from rfl, h1, ingest_of_large (r := .err)]
  refine ⟨4, fun n hn' => ?_⟩
  obtain ⟨n, rfl⟩ : ∃ m, n = m + 4 := ⟨n - 4, by omega⟩
  generalize trimLast 44 (64 :: (lit "any(" ++ w)) = v at hne
  have h2 : Claw.Tok.setAnyRaw [] v = .err := by
    unfold Claw.Tok.setAnyRaw
    rw [if_neg hne]
    rfl
  rw [ingestFrom, if_neg (by decide)]
  simp only [cont, List.singleton_append]
  rw [ingestLoop]
  have h3 : fieldIdx (oneField .any 0) (lit "x") = some 0 := rfl
  have h4 : (oneField .any 0)[0]? = some ⟨lit "x", .any⟩ := rfl
  simp only [h3, h4, List.getElem?_cons_zero]
  rw [ingestField]
  simp only [Bool.false_eq_true, if_false, h2]

/-! ### Strings over lines -/

/-- The tokens of a string in backquotes that does not end on its line. -/
theorem tokens_backquote (x : Ext) {w : Bytes} (hs : Solid w) (hw : 96 ∉ w) {more : Bytes} (hm : 10 ∉ more)
    (hb : more = [] ∨ ∃ r, more = 32 :: r) {body rest : Bytes} (h1 : 96 ∉ body) (h2 : 10 ∉ rest)
    (h3 : ∀ l ∈ lines (body ++ 96 :: rest ++ [10]), words l ≠ []) (T : Bytes) :
    tokens x (lineOf (96 :: w ++ more) ++ (body ++ 96 :: rest ++ 10 :: T)) = { kind := .structStart, name := lit "root" } ::
      { kind := .field, name := lit "x", type := .string, bytes := w ++ [10] ++ body } :: run x false [.root] (lines T) := by
  have hs' : Solid (96 :: w) := solid_append (a := [96]) (solid_graphic (by simp)) hs
  have hno : 10 ∉ 96 :: w ++ more := by
    intro h
    rcases List.mem_append.1 h with h | h
    · exact solid_no_newline hs' h
    · exact hm h
  have hwd : ∃ ws, words (96 :: w ++ more) = (96 :: w) :: ws := by
    rcases hb with rfl | ⟨r, rfl⟩
    · rw [List.append_nil]
      exact ⟨[], words_solid hs' (by simp)⟩
    · exact ⟨_, words_split hs' (by simp) r⟩
  obtain ⟨ws, hws⟩ := hwd
  have hfv : ∀ raw its, fieldValue x [.root] (lit "x") raw (96 :: w) its = ([], some [.raw (lit "x") w, .root]) := by
    intro raw its
    have hc : ((96 :: w).filter (· == 96)).length = 1 := by
      have : w.filter (· == 96) = [] := by
        rw [List.filter_eq_nil_iff]
        intro c hc h
        exact hw (by rw [← eq_of_beq h]; exact hc)
      simp [this]
    unfold fieldValue
    have hk : NotKeyword (96 :: w) := by
      refine ⟨?_, ?_, ?_, ?_, ?_, ?_⟩ <;> exact fun h => absurd (List.cons.inj h).1 (by decide)
    obtain ⟨k1, k2, k3, k4, k5, k6⟩ := hk
    rw [if_neg k1, if_neg k2, if_neg k3, if_neg k4, if_neg k5, if_neg k6,
      if_neg (by simp [Str.hasPrefix, List.isPrefixOf]), if_pos (by rfl), if_neg (by rw [hc]; decide)]
    rfl
  rw [tokens_line x hno hws (by
    intro h
    exact absurd (List.cons.inj h).1 (by decide)), hfv]
  show _ :: run x false [.raw (lit "x") w, .root] _ = _
  rw [run_raw h2 T body h1 h3]

/-- C85 where it holds: a string in backquotes over lines, of which the first has no white space, and none is
blank. -/
theorem C85_backquote_partial (x : Ext) (ig : Bool) (old w body rest : Bytes) (hs : Solid w) (hw : 96 ∉ w) (h1 : 96 ∉ body)
    (h2 : 10 ∉ rest) (h3 : ∀ l ∈ lines (body ++ 96 :: rest ++ [10]), words l ≠ []) :
    unmarshal x (oneField .str) ig 0 [.bin old] (lit "x: `" ++ w ++ [10] ++ body ++ lit "`" ++ rest ++ [10]) =
      .ok [.bin (w ++ [10] ++ body)] := by
  have := tokens_backquote x hs hw (more := []) (by simp) (.inl rfl) h1 h2 h3 []
  unfold unmarshal
  rw [show lit "x: `" ++ w ++ [10] ++ body ++ lit "`" ++ rest ++ [10] =
    lineOf (96 :: w ++ []) ++ (body ++ 96 :: rest ++ 10 :: []) by
      simp [lineOf, show lit "x: `" = [120, 58, 32, 96] from rfl, show lit "x: " = [120, 58, 32] from rfl,
        show lit "`" = [96] from rfl], this]
  rfl

/-- C85 is violated: of the first line of a string in backquotes only the first word is kept. -/
theorem C85_backquote_words_lost (x : Ext) (ig : Bool) (old w more body rest : Bytes) (hs : Solid w) (hw : 96 ∉ w) (hm : 10 ∉ more)
    (h1 : 96 ∉ body) (h2 : 10 ∉ rest) (h3 : ∀ l ∈ lines (body ++ 96 :: rest ++ [10]), words l ≠ []) :
    unmarshal x (oneField .str) ig 0 [.bin old]
      (lit "x: `" ++ w ++ lit " " ++ more ++ [10] ++ body ++ lit "`" ++ rest ++ [10]) = .ok [.bin (w ++ [10] ++ body)] := by
  have := tokens_backquote x hs hw (more := 32 :: more) (by simp [hm]) (.inr ⟨_, rfl⟩) h1 h2 h3 []
  unfold unmarshal
  rw [show lit "x: `" ++ w ++ lit " " ++ more ++ [10] ++ body ++ lit "`" ++ rest ++ [10] =
    lineOf (96 :: w ++ 32 :: more) ++ (body ++ 96 :: rest ++ 10 :: []) by
      simp [lineOf, show lit "x: `" = [120, 58, 32, 96] from rfl, show lit "x: " = [120, 58, 32] from rfl,
        show lit "`" = [96] from rfl, show lit " " = [32] from rfl], this]
  rfl

-- the example of the documentation: "This", then the second and third lines
example (x : Ext) (ig : Bool) : unmarshal x (oneField .str) ig 0 [.bin []]
    (lit "x: `This is a\nmulti-line string that preserves\nline breaks`,\n") =
    .ok [.bin (lit "This\nmulti-line string that preserves\nline breaks")] :=
  C85_backquote_words_lost x ig [] (lit "This") (lit "is a") (lit "multi-line string that preserves\nline breaks") (lit ",")
    (solid_graphic (by decide)) (by decide) (by decide) (by decide) (by decide) (by decide +kernel)

end Claw.Text
