import Verif.Lemmas.JsonForm
import Verif.Lemmas.JsonStr
import Verif.Lemmas.TokenIngest

/-!
# What the JSON reader reads of what the writer wrote
-/

namespace Claw.Json

open Claw.Idl (FT Out)
open Claw.Tok

set_option linter.unusedSimpArgs false

/-- The token stream of a text. -/
def stream (big : FT → UInt64 → Int) (lv : List Lv) (st : List (Bool × Bool)) (nm : Str) (ls : List Lex) : List Token :=
  toToks big st nm (decode lv ls)

/-- The token of a string, number, boolean or null. -/
def lexTok (big : FT → UInt64 → Int) (nm : Str) : Lex → Token
  | .str b => { kind := .field, name := nm, type := .string, bytes := b }
  | .num n => { kind := .field, name := nm, data := intBits big n }
  | .tru => { kind := .field, name := nm, type := .bool, data := 1 }
  | .fls => { kind := .field, name := nm, type := .bool, data := 0 }
  | .null => { kind := .field, name := nm, isNil := true }
  | _ => { kind := .field, name := nm }

theorem lexTok_kind (big : FT → UInt64 → Int) (nm : Str) (l : Lex) : (lexTok big nm l).kind = .field := by
  cases l <;> rfl

theorem lexTok_name (big : FT → UInt64 → Int) (nm : Str) (l : Lex) : (lexTok big nm l).name = nm := by
  cases l <;> rfl

/-- A lexeme that is a value. -/
def scalarLex : Lex → Bool
  | .str _ | .num _ | .tru | .fls | .null => true
  | _ => false

section
variable {big : FT → UInt64 → Int}

theorem stream_scalar {lv : List Lv} {st : List (Bool × Bool)} (hlv : canValue lv = true) (hst : ∀ r, st ≠ (true, true) :: r)
    (nm : Str) {l : Lex} (hl : scalarLex l = true) (ls : List Lex) :
    stream big lv st nm (l :: ls) = lexTok big nm l :: stream big (done lv) (setKey st) [] ls := by
  unfold stream
  cases l <;> simp [scalarLex] at hl
  case str b =>
    have h1 : decode lv (.str b :: ls) = .str b :: decode (done lv) ls := by
      rw [decode.eq_def]
      simp only
      split
      · simp [canValue] at hlv
      · rw [if_pos hlv]
    rw [h1, toToks.eq_def]
    cases st with
    | nil => rfl
    | cons p r =>
      obtain ⟨a, b⟩ := p
      cases a <;> cases b <;> first | rfl | exact absurd rfl (hst r)
  all_goals (rw [decode.eq_def]; simp only; rw [if_pos hlv, toToks.eq_def]; rfl)

/-- The token that announces a struct or list. -/
def announce (nm : Str) (t : FT) : List Token := if nm ≠ [] then [{ kind := .field, name := nm, type := t }] else []

theorem stream_lbrace {lv : List Lv} {st : List (Bool × Bool)} (hlv : canValue lv = true) (nm : Str) (ls : List Lex) :
    stream big lv st nm (.lbrace :: ls) = announce nm .struct ++
      { kind := .structStart, name := if nm = [] then lit "root" else nm } ::
        stream big (.objKey [] true :: lv) ((true, true) :: st) [] ls := by
  unfold stream
  rw [decode.eq_def]
  simp only
  rw [if_pos hlv, toToks.eq_def]
  rfl

theorem stream_lbrack {lv : List Lv} {st : List (Bool × Bool)} (hlv : canValue lv = true) (nm : Str) (ls : List Lex) :
    stream big lv st nm (.lbrack :: ls) = announce nm .unknown ++
      { kind := .listStart } :: stream big (.arrVal true :: lv) ((false, false) :: st) [] ls := by
  unfold stream
  rw [decode.eq_def]
  simp only
  rw [if_pos hlv, toToks.eq_def]
  rfl

/-- The state of the decoder before a member of an object. -/
def before (first : Bool) (ns : List Bytes) : Lv := if first then .objKey ns true else .objNext ns

theorem stream_rbrace (first : Bool) (ns : List Bytes) (lv : List Lv) (p : Bool × Bool) (st : List (Bool × Bool)) (nm : Str)
    (ls : List Lex) : stream big (before first ns :: lv) (p :: st) nm (.rbrace :: ls) =
      { kind := .structEnd } :: stream big (done lv) (setKey st) nm ls := by
  unfold stream before
  cases first <;> rfl

theorem stream_key (first : Bool) (ns : List Bytes) (lv : List Lv) (st : List (Bool × Bool)) (nm : Str) (b : Bytes)
    (hb : b ∉ ns) (ls : List Lex) :
    stream big (before first ns :: lv) ((true, true) :: st) nm (sepb first ++ (.str b :: .colon :: ls)) =
      stream big (.objVal (b :: ns) :: lv) ((true, false) :: st) b ls := by
  unfold stream before sepb
  cases first with
  | true =>
    simp only [if_true, List.nil_append]
    rw [decode.eq_def]
    simp only [if_neg hb]
    rw [decode.eq_def]
    rfl
  | false =>
    simp only [Bool.false_eq_true, if_false, List.singleton_append]
    rw [decode.eq_def]
    simp only
    rw [decode.eq_def]
    simp only [if_neg hb]
    rw [decode.eq_def]
    rfl

/-- The state of the decoder before an item of an array. -/
def beforeItem (first : Bool) : Lv := if first then .arrVal true else .arrNext

theorem stream_rbrack (first : Bool) (lv : List Lv) (p : Bool × Bool) (st : List (Bool × Bool)) (nm : Str) (ls : List Lex) :
    stream big (beforeItem first :: lv) (p :: st) nm (.rbrack :: ls) =
      { kind := .listEnd } :: stream big (done lv) (setKey st) nm ls := by
  unfold stream beforeItem
  cases first <;> rfl

theorem stream_item (first : Bool) (lv : List Lv) (st : List (Bool × Bool)) (nm : Str) (ls : List Lex) :
    stream big (beforeItem first :: lv) st nm (sepb first ++ ls) = stream big (.arrVal first :: lv) st nm ls := by
  unfold stream beforeItem sepb
  cases first <;> rfl

/-- The items of a list of scalars. -/
theorem stream_items {α : Type} (lx : α → Lex) : ∀ (l : List α), (∀ a ∈ l, scalarLex (lx a) = true) →
    ∀ (first : Bool) (k : Bool) (lv : List Lv) (st : List (Bool × Bool)) (ls : List Lex),
    stream big (beforeItem first :: lv) ((false, k) :: st) [] (outSeq (fun a => [lx a]) first l ++ .rbrack :: ls) =
      l.map (fun a => lexTok big [] (lx a)) ++ { kind := .listEnd } :: stream big (done lv) (setKey st) [] ls := by
  intro l
  induction l with
  | nil => intro _ first k lv st ls; exact stream_rbrack first lv _ st [] ls
  | cons a l ih =>
    intro h first k lv st ls
    simp only [outSeq, List.append_assoc, List.map_cons, List.cons_append, List.nil_append]
    rw [stream_item, stream_scalar (by rfl) (by simp) [] (h a (by simp))]
    have := ih (fun a ha => h a (by simp [ha])) false true lv st ls
    simp only [beforeItem, Bool.false_eq_true, if_false] at this
    simp only [done, setKey]
    rw [this]
    rfl

end

/-! ### Scalars -/

/-- The lexeme of a scalar. -/
def numLx (u : Bool) (t : FT) (e : Option EnumT) (d : UInt64) : Lex := (render (numJ u t e d)).headD .null

theorem render_numJ (u : Bool) (t : FT) (e : Option EnumT) (d : UInt64) :
    render (numJ u t e d) = [numLx u t e d] ∧ scalarLex (numLx u t e d) = true := by
  unfold numLx numJ
  cases e with
  | some e => simp only; split <;> exact ⟨rfl, rfl⟩
  | none =>
    cases t <;> simp only <;> first
      | exact ⟨rfl, rfl⟩
      | (split <;> exact ⟨rfl, rfl⟩)
      | (cases (d != 0) <;> exact ⟨rfl, rfl⟩)

theorem repaired_ne {s : Bytes} (h : s ≠ []) : repaired s ≠ [] := by
  cases s with
  | nil => exact absurd rfl h
  | cons a s =>
    intro hr
    unfold repaired runes at hr
    simp only [List.length_cons, runesN, List.flatMap_cons, List.append_eq_nil_iff] at hr
    have := encodeRune_pos (decodeRune (a :: s)).1
    rw [hr.1] at this
    simp at this

theorem norm_zero {t : FT} {d : UInt64} (h : Holds t d) : norm t 0 = 0 := by
  cases t <;> simp only [Holds] at h <;> rfl

theorem clamp_id {n : Int} (h1 : -(2 ^ 63) ≤ n) (h2 : n < 2 ^ 63) : clamp n = n := by
  unfold clamp
  rw [if_neg (by omega), if_neg (by omega)]

theorem intBits_signed (big : FT → UInt64 → Int) (d : UInt64) : intBits big (.int d.toInt64.toInt) = d := by
  have h1 := Int64.le_toInt d.toInt64
  have h2 := Int64.toInt_lt d.toInt64
  simp only [intBits]
  rw [clamp_id h1 h2, Int64.ofInt_toInt]
  simp

theorem intBits_unsigned (big : FT → UInt64 → Int) (d : UInt64) :
    intBits big (.int d.toNat) = if 2 ^ 63 ≤ d.toNat then (2 ^ 63 - 1 : UInt64) else d := by
  simp only [intBits, clamp]
  rw [if_neg (by omega)]
  by_cases h : 2 ^ 63 ≤ d.toNat
  · rw [if_pos h, if_pos (by omega)]
    decide +kernel
  · rw [if_neg h, if_neg (by omega)]
    rw [Int64.ofInt_eq_ofNat]
    simp

theorem tokNum_lex {big : FT → UInt64 → Int} {u : Bool} {t : FT} {e : Option EnumT} {d : UInt64} (h : Holds t d) (nm : Str) :
    tokNum t e (lexTok big nm (numLx u t e d)) = backNum big u t e d := by
  have hn := norm_holds h
  have h0 := norm_zero h
  cases e with
  | some e =>
    simp only [numLx, numJ, backNum, tokNum]
    split
    · rename_i hu
      have ht : t = .uint8 ∨ t = .uint16 := by
        simp only [Bool.and_eq_true, Bool.or_eq_true, beq_iff_eq] at hu
        exact hu.2
      simp only [render, List.headD_cons, lexTok, ne_eq, not_true_eq_false, if_false]
      rw [intBits_unsigned, if_neg, hn]
      rcases ht with rfl | rfl
      · obtain ⟨v, rfl⟩ := h
        have := v.toNat_lt
        simp; omega
      · obtain ⟨v, rfl⟩ := h
        have := v.toNat_lt
        simp; omega
    · simp only [render, List.headD_cons, lexTok]
      by_cases hname : nameOf e d = []
      · rw [if_pos hname, hname]
        exact h0
      · have := repaired_ne hname
        simp only [if_neg hname]
        exact if_pos this
  | none =>
    simp only [numLx, numJ, backNum, tokNum]
    cases t <;> simp only [Holds] at h
    case bool => rcases h with rfl | rfl <;> rfl
    case int8 => simp only [render, List.headD_cons, lexTok, intBits_signed, hn]
    case int16 => simp only [render, List.headD_cons, lexTok, intBits_signed, hn]
    case int32 => simp only [render, List.headD_cons, lexTok, intBits_signed, hn]
    case int64 => simp only [render, List.headD_cons, lexTok, intBits_signed, hn]
    case uint64 => simp only [render, List.headD_cons, lexTok, intBits_unsigned, norm]
    case float32 =>
      simp only
      split
      · exact h0
      · rfl
    case float64 =>
      simp only
      split
      · exact h0
      · rfl
    all_goals
      simp only [render, List.headD_cons, lexTok, intBits_unsigned]
      rw [if_neg, hn]
      obtain ⟨v, rfl⟩ := h
      have := v.toNat_lt
      simp; omega

/-! ### Structs -/

/-- The field cannot be read: an error, or the next token is the start of a struct. -/
def Bad (r : Out (Val × List Token)) : Prop :=
  r = .err ∨ ∃ v t ts, r = .ok (v, t :: ts) ∧ t.kind = .structStart

theorem listItems_ends {items : List Token} (h : ∀ t ∈ items, t.kind = .field) (ts : List Token) :
    listItems (items ++ { kind := .listEnd } :: ts) = .ok (items, ts) := by
  induction items with
  | nil => simp [listItems]
  | cons t l ih =>
    have h1 := h t (by simp)
    simp only [List.cons_append, listItems, ih fun t ht => h t (by simp [ht])]
    rw [if_neg (by rw [h1]; decide)]

theorem before_false (ns : List Bytes) : before false ns = .objNext ns := rfl

theorem announce_name {nm : Str} (h : nm ≠ []) (t : FT) : announce nm t = [{ kind := .field, name := nm, type := t }] := if_pos h

theorem back_default_null {env : Env} {big : FT → UInt64 → Int} {u : Bool} {ty : Ty} : back env big u ty .null = .null := by
  cases ty <;> rfl

section
variable {env : Env} {big : FT → UInt64 → Int} {u ig : Bool} {al : Bytes → Bytes → List Lex}

mutual

theorem jread_field (hn : Named env) (hd : Distinct env) (hal : ∀ h d, ∃ r, al h d = .lbrace :: r)
    {name : Str} (hname : name ≠ []) {ty : Ty} (v : Val) (hf : Fits env ty v)
    {lv : List Lv} {st : List (Bool × Bool)} (hlv : canValue lv = true) (hst : ∀ r, st ≠ (true, true) :: r) (rest : List Lex) :
    ∃ tok T, stream big lv st name (out env u al ty v ++ rest) = tok :: T ∧ tok.kind = .field ∧ tok.name = name ∧
      ∃ N, ∀ n, N ≤ n →
        (readable v = true → ingestField env ig n ty ty.default tok T =
          .ok (back env big u ty v, stream big (done lv) (setKey st) [] rest)) ∧
        (readable v = false → Bad (ingestField env ig n ty ty.default tok T)) := by
  have hnull : stream big lv st name (.null :: rest) = lexTok big name .null :: stream big (done lv) (setKey st) [] rest :=
    stream_scalar hlv hst name rfl rest
  have hlist : ∀ ls, stream big lv st name (.lbrack :: ls) =
      { kind := .field, name := name, type := .unknown } :: { kind := .listStart } ::
        stream big (.arrVal true :: lv) ((false, false) :: st) [] ls := by
    intro ls
    rw [stream_lbrack hlv, announce_name hname]
    rfl
  have hobj : ∀ ls, stream big lv st name (.lbrace :: ls) =
      { kind := .field, name := name, type := .struct } ::
      { kind := .structStart, name := if name = [] then lit "root" else name } ::
        stream big (.objKey [] true :: lv) ((true, true) :: st) [] ls := by
    intro ls
    rw [stream_lbrace hlv, announce_name hname]
    rfl
  cases v with
  | num d =>
    cases hf with
    | @num t e _ h =>
      simp only [out, (render_numJ u t e d).1, List.singleton_append, back]
      refine ⟨_, _, stream_scalar hlv hst name (render_numJ u t e d).2 rest, lexTok_kind _ _ _, lexTok_name _ _ _, 1,
        fun n hn' => ⟨fun _ => ?_, by simp [readable]⟩⟩
      obtain ⟨n, rfl⟩ : ∃ m, n = m + 1 := ⟨n - 1, by omega⟩
      rw [ingestField, tokNum_lex h]
  | bin b =>
    cases hf with
    | str =>
      simp only [out, List.singleton_append, back]
      refine ⟨_, _, stream_scalar hlv hst name rfl rest, rfl, rfl, 1, fun n hn' => ⟨fun _ => ?_, by simp [readable]⟩⟩
      obtain ⟨n, rfl⟩ : ∃ m, n = m + 1 := ⟨n - 1, by omega⟩
      rfl
    | bytes =>
      simp only [out, List.singleton_append, back]
      refine ⟨_, _, stream_scalar hlv hst name rfl rest, rfl, rfl, 1, fun n hn' => ⟨fun _ => ?_, by simp [readable]⟩⟩
      obtain ⟨n, rfl⟩ : ∃ m, n = m + 1 := ⟨n - 1, by omega⟩
      rfl
  | null =>
    refine ⟨_, _, by simp only [out, List.singleton_append]; exact hnull, rfl, rfl, 1, fun n hn' => ⟨fun _ => ?_, by simp [readable]⟩⟩
    obtain ⟨n, rfl⟩ : ∃ m, n = m + 1 := ⟨n - 1, by omega⟩
    cases hf <;> rfl
  | obj fs =>
    cases hf with
    | @obj s _ hfs =>
      obtain ⟨N, hN⟩ := jread_fields hn hd hal (s := s) (pds := []) (ds := env s) rfl fs hfs true [] (by simp) (by simp)
        lv st [] rfl rest
      refine ⟨_, _, by simp only [out, List.cons_append, List.append_assoc, List.nil_append]; exact hobj _, rfl, rfl, N + 2,
        fun n hn' => ?_⟩
      obtain ⟨n, rfl⟩ : ∃ m, n = m + 2 := ⟨n - 2, by omega⟩
      have h1 := hN n (by omega)
      simp only [before, if_true, List.nil_append] at h1
      simp only [readable, back]
      rw [ingestField]
      simp only [Bool.false_eq_true, if_false]
      rw [ingestFrom]
      simp only [ne_eq, not_true_eq_false, if_false]
      rw [show fresh env s = (env s).map (fun d => d.ty.default) from rfl]
      refine ⟨fun hr => ?_, fun hr => ?_⟩
      · rw [h1.1 hr]
      · rw [h1.2 hr]; exact .inl rfl
  | nums ds =>
    cases hf with
    | @nums t e _ h =>
      simp only [out, back]
      by_cases hds : ds = []
      · subst hds
        refine ⟨_, _, by simp only [if_true, List.singleton_append]; exact hnull, rfl, rfl, 1,
          fun n hn' => ⟨fun _ => ?_, by simp [readable]⟩⟩
        obtain ⟨n, rfl⟩ : ∃ m, n = m + 1 := ⟨n - 1, by omega⟩
        rfl
      · simp only [if_neg hds, List.cons_append, List.append_assoc, List.nil_append]
        refine ⟨_, _, hlist _, rfl, rfl, 1, fun n hn' => ⟨fun _ => ?_, by simp [readable]⟩⟩
        obtain ⟨n, rfl⟩ : ∃ m, n = m + 1 := ⟨n - 1, by omega⟩
        have h1 := stream_items (big := big) (numLx u t e) ds (fun d _ => (render_numJ u t e d).2) true false lv st rest
        simp only [beforeItem, if_true, ← (render_numJ u t e _).1] at h1
        rw [ingestField]
        simp only [Bool.false_eq_true, if_false, readList, ne_eq, not_true_eq_false]
        rw [h1, listItems_ends (by simp [lexTok_kind])]
        simp only [Ty.default, appendNums, List.nil_append, List.map_map]
        congr 3
        apply List.map_congr_left
        intro d hd'
        exact tokNum_lex (h d hd') []
  | bins bs =>
    by_cases hbs : bs = []
    · subst hbs
      refine ⟨_, _, by simp only [out, if_true, List.singleton_append]; exact hnull, rfl, rfl, 1,
        fun n hn' => ⟨fun _ => ?_, by simp [readable]⟩⟩
      obtain ⟨n, rfl⟩ : ∃ m, n = m + 1 := ⟨n - 1, by omega⟩
      cases hf <;> rfl
    · cases hf with
      | strs =>
        simp only [out, if_neg hbs, List.cons_append, List.append_assoc, List.nil_append]
        refine ⟨_, _, hlist _, rfl, rfl, 1, fun n hn' => ⟨fun _ => ?_, by simp [readable]⟩⟩
        obtain ⟨n, rfl⟩ : ∃ m, n = m + 1 := ⟨n - 1, by omega⟩
        have h1 := stream_items (big := big) (fun b => Lex.str (repaired b)) bs (fun _ _ => rfl) true false lv st rest
        simp only [beforeItem, if_true] at h1
        rw [ingestField]
        simp only [Bool.false_eq_true, if_false, readList, ne_eq, not_true_eq_false]
        rw [h1, listItems_ends (by simp [lexTok_kind])]
        simp only [Ty.default, appendBins, List.nil_append, List.map_map, back]
        rfl
      | binaries =>
        simp only [out, if_neg hbs, List.cons_append, List.append_assoc, List.nil_append]
        refine ⟨_, _, hlist _, rfl, rfl, 1, fun n hn' => ⟨fun _ => ?_, by simp [readable]⟩⟩
        obtain ⟨n, rfl⟩ : ∃ m, n = m + 1 := ⟨n - 1, by omega⟩
        have h1 := stream_items (big := big) (fun b => Lex.str (base64 b)) bs (fun _ _ => rfl) true false lv st rest
        simp only [beforeItem, if_true] at h1
        rw [ingestField]
        simp only [Bool.false_eq_true, if_false, readList, ne_eq, not_true_eq_false]
        rw [h1, listItems_ends (by simp [lexTok_kind])]
        simp only [Ty.default, appendBins, List.nil_append, List.map_map, back]
        rfl
  | list l =>
    cases hf with
    | @list s _ hl =>
      cases l with
      | nil =>
        refine ⟨_, _, by simp only [out, if_true, List.singleton_append]; exact hnull, rfl, rfl, 1,
          fun n hn' => ⟨fun _ => ?_, by simp [readable, readables]⟩⟩
        obtain ⟨n, rfl⟩ : ∃ m, n = m + 1 := ⟨n - 1, by omega⟩
        rfl
      | cons v l =>
        cases v <;> cases hl
        rename_i fs hfs hl
        obtain ⟨N, hN⟩ := jread_fields hn hd hal (s := s) (pds := []) (ds := env s) rfl fs hfs true [] (by simp) (by simp)
          (.arrVal true :: lv) ((false, false) :: st) [] rfl (outItems env u al s l ++ .rbrack :: rest)
        refine ⟨_, _, by
          simp only [out, outItems, reduceCtorEq, if_false, List.cons_append, List.append_assoc, List.nil_append]
          exact hlist _, rfl, rfl, N + 5, fun n hn' => ?_⟩
        obtain ⟨n, rfl⟩ : ∃ m, n = m + 3 := ⟨n - 3, by omega⟩
        have h1 := hN n (by omega)
        simp only [before, if_true, List.nil_append] at h1
        rw [ingestField]
        simp only [Bool.false_eq_true, if_false, ne_eq, not_true_eq_false]
        rw [stream_lbrace (by rfl)]
        simp only [announce, ne_eq, not_true_eq_false, if_false, List.nil_append, if_true]
        rw [ingestItems]
        simp only [reduceCtorEq, if_false]
        rw [ingestFrom]
        simp only [ne_eq, not_true_eq_false, if_false]
        rw [show fresh env s = (env s).map (fun d => d.ty.default) from rfl]
        by_cases hr : readables fs = true
        · rw [h1.1 hr]
          simp only [done, setKey]
          obtain ⟨n, rfl⟩ : ∃ m, n = m + 1 := ⟨n - 1, by omega⟩
          cases l with
          | nil =>
            have h2 := stream_rbrack (big := big) false lv (false, true) st [] rest
            simp only [beforeItem, Bool.false_eq_true, if_false] at h2
            simp only [outItems, List.nil_append, h2, ingestItems, if_true]
            simp [readable, readables, back, backItems, Ty.default, appendRec, hr]
            rfl
          | cons v' l' =>
            cases v' <;> cases hl
            simp only [outItems, out, List.cons_append]
            rw [show ∀ ls, stream big (.arrNext :: lv) ((false, true) :: st) [] (.lbrace :: ls) = [] from fun _ => rfl, ingestItems]
            exact ⟨by simp [readable], fun _ => .inl rfl⟩
        · have hr := Bool.eq_false_iff.2 hr
          rw [h1.2 hr]
          exact ⟨by simp [readable, readables, hr], fun _ => .inl rfl⟩
  | map ks vs =>
    cases hf with
    | @map k v _ _ hk hri hvs =>
      by_cases hks : ks = []
      · subst hks
        cases hvs
        refine ⟨_, _, by simp only [out, if_true, List.singleton_append]; exact hnull, rfl, rfl, 1,
          fun n hn' => ⟨fun _ => ?_, by simp [readable]⟩⟩
        obtain ⟨n, rfl⟩ : ∃ m, n = m + 1 := ⟨n - 1, by omega⟩
        rfl
      · simp only [out, if_neg hks, List.cons_append]
        refine ⟨_, _, hobj _, rfl, rfl, 1, fun n hn' => ⟨fun h => ?_, fun _ => ?_⟩⟩
        · exact absurd h (by simpa [readable] using hks)
        · obtain ⟨n, rfl⟩ : ∃ m, n = m + 1 := ⟨n - 1, by omega⟩
          rw [ingestField]
          exact .inl rfl
  | any h d =>
    cases hf
    obtain ⟨r, hr⟩ := hal h d
    simp only [out, hr, List.cons_append]
    refine ⟨_, _, hobj _, rfl, rfl, 1, fun n hn' => ⟨by simp [readable], fun _ => ?_⟩⟩
    obtain ⟨n, rfl⟩ : ∃ m, n = m + 1 := ⟨n - 1, by omega⟩
    rw [ingestField]
    exact .inr ⟨_, _, _, rfl, rfl⟩
  | anys l =>
    cases hf
    cases l with
    | nil =>
      refine ⟨_, _, by simp only [out, if_true, List.singleton_append]; exact hnull, rfl, rfl, 1,
        fun n hn' => ⟨fun _ => ?_, by simp [readable]⟩⟩
      obtain ⟨n, rfl⟩ : ∃ m, n = m + 1 := ⟨n - 1, by omega⟩
      rfl
    | cons p l =>
      obtain ⟨r, hr⟩ := hal p.1 p.2
      simp only [out, reduceCtorEq, if_false, outSeq, sepb, if_true, List.nil_append, hr, List.cons_append]
      refine ⟨_, _, hlist _, rfl, rfl, 1, fun n hn' => ⟨by simp [readable], fun _ => .inl ?_⟩⟩
      obtain ⟨n, rfl⟩ : ∃ m, n = m + 1 := ⟨n - 1, by omega⟩
      rw [ingestField]
      simp only [Bool.false_eq_true, if_false, readList, ne_eq, not_true_eq_false]
      rw [stream_lbrace (by rfl)]
      simp only [announce, ne_eq, not_true_eq_false, if_false, List.nil_append, listItems, reduceCtorEq]
      generalize hg : listItems (stream big _ _ _ _) = q
      cases q with
      | ok q => rfl
      | err => rfl
      | panic => exact absurd hg (listItems_np _)
termination_by sizeOf v

theorem jread_fields (hn : Named env) (hd : Distinct env) (hal : ∀ h d, ∃ r, al h d = .lbrace :: r)
    {s : Nat} {pds ds : List Decl} (he : env s = pds ++ ds) (vs : List Val) (hf : FitsAll env ds vs) (first : Bool)
    (ns : List Bytes) (hns : ∀ b ∈ ns, b ∈ pds.map (·.name)) (hfirst : first = true → ns = [])
    (lv : List Lv) (st : List (Bool × Bool)) (xs : List Val) (hxs : xs.length = pds.length) (rest : List Lex) :
    ∃ N, ∀ n, N ≤ n →
      (readables vs = true → ingestLoop env ig n s (xs ++ ds.map fun d => d.ty.default)
          (stream big (before first ns :: lv) ((true, true) :: st) [] (outFields env u al first ds vs ++ .rbrace :: rest)) =
        .ok (xs ++ backFields env big u ds vs, stream big (done lv) (setKey st) [] rest)) ∧
      (readables vs = false → ingestLoop env ig n s (xs ++ ds.map fun d => d.ty.default)
          (stream big (before first ns :: lv) ((true, true) :: st) [] (outFields env u al first ds vs ++ .rbrace :: rest)) =
        .err) := by
  cases vs with
  | nil =>
    cases hf
    refine ⟨1, fun n hn' => ⟨fun _ => ?_, by simp [readables]⟩⟩
    obtain ⟨n, rfl⟩ : ∃ m, n = m + 1 := ⟨n - 1, by omega⟩
    simp only [outFields, List.nil_append, stream_rbrace, ingestLoop, backFields, List.map_nil]
  | cons v vs =>
    cases hf with
    | @cons d ds _ _ hv hvs =>
      have hdm : d ∈ env s := by rw [he]; simp
      obtain ⟨hne, hutf⟩ := hn s d hdm
      have hnd := hd s
      rw [he, List.map_append, List.map_cons, List.nodup_append] at hnd
      have hnot : d.name ∉ pds.map (·.name) := fun h => hnd.2.2 _ h _ (by simp) rfl
      have hbn : d.name ∉ ns := fun h => hnot (hns _ h)
      obtain ⟨tok, T, h1, h2, h3, N1, hN1⟩ := jread_field hn hd hal hne v hv (lv := .objVal (d.name :: ns) :: lv)
        (st := (true, false) :: st) rfl (by simp) (outFields env u al false ds vs ++ .rbrace :: rest)
      obtain ⟨N2, hN2⟩ := jread_fields hn hd hal (s := s) (pds := pds ++ [d]) (ds := ds) (by rw [he]; simp) vs hvs false
        (d.name :: ns) (by
          intro b hb
          rcases List.mem_cons.1 hb with rfl | hb
          · simp
          · have := hns b hb
            simp only [List.map_append, List.mem_append]
            exact .inl this) (by simp) lv st (xs ++ [back env big u d.ty v]) (by simp [hxs]) rest
      have hidx : fieldIdx (env s) d.name = some pds.length := by
        unfold fieldIdx
        rw [he, List.findIdx?_eq_some_iff_getElem]
        refine ⟨by simp, by simp, fun j hj => ?_⟩
        simp only [decide_eq_true_eq]
        intro hc
        apply hnot
        rw [List.getElem_append_left hj] at hc
        exact List.mem_map.2 ⟨_, List.getElem_mem hj, hc⟩
      refine ⟨N1 + N2 + 2, fun n hn' => ?_⟩
      obtain ⟨n, rfl⟩ : ∃ m, n = m + 1 := ⟨n - 1, by omega⟩
      simp only [outFields, List.append_assoc, List.cons_append, repaired_utf8 hutf]
      rw [stream_key first ns lv st [] d.name hbn, h1, ingestLoop]
      simp only [h2, h3, hidx]
      rw [show (env s)[pds.length]? = some d by rw [he]; simp,
        show (xs ++ (d :: ds).map fun d => d.ty.default)[pds.length]? = some d.ty.default by rw [← hxs]; simp]
      simp only
      have h4 := hN1 n (by omega)
      by_cases hr : readable v = true
      · rw [h4.1 hr]
        simp only [done, setKey]
        have h5 := hN2 n (by omega)
        rw [before_false] at h5
        rw [show (xs ++ (d :: ds).map fun d => d.ty.default).set pds.length (back env big u d.ty v) =
          xs ++ [back env big u d.ty v] ++ ds.map fun d => d.ty.default by
            rw [← hxs]; simp]
        refine ⟨fun hrs => ?_, fun hrs => ?_⟩
        · rw [h5.1 (by simpa [readables, hr] using hrs)]
          simp [backFields]
          rfl
        · exact h5.2 (by simpa [readables, hr] using hrs)
      · have hr := Bool.eq_false_iff.2 hr
        refine ⟨by simp [readables, hr], fun _ => ?_⟩
        rcases h4.2 hr with h4 | ⟨v', t, T', h4, h5⟩
        · rw [h4]
        · rw [h4]
          obtain ⟨n, rfl⟩ : ∃ m, n = m + 1 := ⟨n - 1, by omega⟩
          simp only [ingestLoop, h5]
termination_by sizeOf vs

end

end

end Claw.Json
