import Verif.Spec.Json
import Verif.Lemmas.TokenRead

/-!
# What the JSON writer writes, field by field
-/

namespace Claw.Json

open Claw.Idl (FT Out)
open Claw.Tok

set_option linter.unusedSimpArgs false

/-- A comma unless it is the first. -/
def sepb (first : Bool) : List Lex := if first then [] else [.comma]

/-- Values with commas between them. -/
def outSeq {α : Type} (f : α → List Lex) : Bool → List α → List Lex
  | _, [] => []
  | first, a :: l => sepb first ++ (f a ++ outSeq f false l)

mutual

/-- The text of a field.  In a list of structs there are no commas. -/
def out (env : Env) (useNums : Bool) (al : Bytes → Bytes → List Lex) (ty : Ty) : Val → List Lex
  | .num d => match ty with
    | .num t e => render (numJ useNums t e d)
    | _ => []
  | .bin b => match ty with
    | .str => [.str (repaired b)]
    | _ => [.str (base64 b)]
  | .null => [.null]
  | .obj fs => match ty with
    | .struct s => .lbrace :: (outFields env useNums al true (env s) fs ++ [.rbrace])
    | _ => []
  | .nums ds => match ty with
    | .listNum t e => if ds = [] then [.null] else
        .lbrack :: (outSeq (fun d => render (numJ useNums t e d)) true ds ++ [.rbrack])
    | _ => []
  | .bins bs => if bs = [] then [.null] else match ty with
    | .listStr => .lbrack :: (outSeq (fun b => [.str (repaired b)]) true bs ++ [.rbrack])
    | _ => .lbrack :: (outSeq (fun b => [.str (base64 b)]) true bs ++ [.rbrack])
  | .list l => match ty with
    | .listStruct s => if l = [] then [.null] else .lbrack :: (outItems env useNums al s l ++ [.rbrack])
    | _ => []
  | .map ks vs => match ty with
    | .map _ v => if ks = [] then [.null] else .lbrace :: (outEntries env useNums al v true ks vs ++ [.rbrace])
    | _ => []
  | .any hash data => al hash data
  | .anys l => if l = [] then [.null] else .lbrack :: (outSeq (fun p => al p.1 p.2) true l ++ [.rbrack])

/-- The fields of a struct. -/
def outFields (env : Env) (useNums : Bool) (al : Bytes → Bytes → List Lex) (first : Bool) :
    List Decl → List Val → List Lex
  | d :: ds, v :: vs => sepb first ++ (.str (repaired d.name) :: .colon ::
      (out env useNums al d.ty v ++ outFields env useNums al false ds vs))
  | _, _ => []

/-- The items of a list of structs. -/
def outItems (env : Env) (useNums : Bool) (al : Bytes → Bytes → List Lex) (s : Nat) : List Val → List Lex
  | v :: vs => out env useNums al (.struct s) v ++ outItems env useNums al s vs
  | [] => []

/-- The entries of a map. -/
def outEntries (env : Env) (useNums : Bool) (al : Bytes → Bytes → List Lex) (v : MTy) (first : Bool) :
    List Key → List Val → List Lex
  | key :: ks, x :: vs => sepb first ++ (.str (keyName key) :: .colon ::
      (outVal env useNums al v x ++ outEntries env useNums al v false ks vs))
  | _, _ => []

/-- The value of a map entry. -/
def outVal (env : Env) (useNums : Bool) (al : Bytes → Bytes → List Lex) (v : MTy) : Val → List Lex
  | .num d => match v with
    | .num t => render (numJ useNums t none d)
    | _ => []
  | .bin b => [.str (repaired b)]
  | .obj fs => match v with
    | .struct s => .lbrace :: (outFields env useNums al true (env s) fs ++ [.rbrace])
    | _ => []
  | .any hash data => al hash data
  | .anys l => .lbrack :: (outSeq (fun p => al p.1 p.2) true l ++ [.rbrack])
  | _ => []

end

/-! ### Writing one token -/

theorem prepend_prepend (a b : List Lex) (r : Out (List Lex)) : prepend a (prepend b r) = prepend (a ++ b) r := by
  cases r <;> simp [prepend]

theorem prepend_nil (r : Out (List Lex)) : prepend [] r = r := by
  cases r <;> simp [prepend]

theorem sep_cons (f : Bool) (st : List Bool) : sep (f :: st) = sepb f := by
  cases f <;> rfl

section
variable {u : Bool} {A : Bytes → Bytes → Out (List Lex)}

/-- A field with a name. -/
theorem write_named {tok : Token} {v : List Lex} (hk : tok.kind = .field) (hn : tok.name ≠ [])
    (hv : valueLex u A tok = .ok v) (f : Bool) (st : List Bool) (ts : List Token) :
    write u A (f :: st) (tok :: ts) =
      prepend (sepb f ++ (.str (repaired tok.name) :: .colon :: v)) (write u A (false :: st) ts) := by
  rw [write]
  simp only [hk, hv, sep_cons, notFirst]
  rw [if_pos hn]
  simp

/-- An item. -/
theorem write_item {tok : Token} {v : List Lex} (hk : tok.kind = .field) (hn : tok.name = [])
    (hv : valueLex u A tok = .ok v) (f : Bool) (st : List Bool) (ts : List Token) :
    write u A (f :: st) (tok :: ts) = prepend (sepb f ++ v) (write u A (false :: st) ts) := by
  rw [write]
  simp only [hk, hv, sep_cons, notFirst]
  rw [if_neg (by simp [hn])]
  simp

theorem write_entry {tok : Token} {v : List Lex} (hk : tok.kind = .mapEntry)
    (hv : valueLex u A { tok with type := tok.valueType } = .ok v) (f : Bool) (st : List Bool) (ts : List Token) :
    write u A (f :: st) (tok :: ts) =
      prepend (sepb f ++ (.str (repaired tok.keyBytes) :: .colon :: v)) (write u A (false :: st) ts) := by
  rw [write]
  simp only [hk] at hv
  simp only [hk, hv, sep_cons, notFirst]
  simp

theorem write_structStart (tok : Token) (hk : tok.kind = .structStart) (st : List Bool) (ts : List Token) :
    write u A st (tok :: ts) = prepend [.lbrace] (write u A (true :: st) ts) := by
  rw [write]; simp only [hk]

theorem write_structEnd (tok : Token) (hk : tok.kind = .structEnd) (f : Bool) (st : List Bool) (ts : List Token) :
    write u A (f :: st) (tok :: ts) = prepend [.rbrace] (write u A st ts) := by
  rw [write]; simp only [hk, List.tail_cons]

theorem write_mapStart (tok : Token) (hk : tok.kind = .mapStart) (st : List Bool) (ts : List Token) :
    write u A st (tok :: ts) = prepend [.lbrace] (write u A (true :: st) ts) := by
  rw [write]; simp only [hk]

theorem write_mapEnd (tok : Token) (hk : tok.kind = .mapEnd) (f : Bool) (st : List Bool) (ts : List Token) :
    write u A (f :: st) (tok :: ts) = prepend [.rbrace] (write u A st ts) := by
  rw [write]; simp only [hk, List.tail_cons]

theorem write_listStart (tok : Token) (hk : tok.kind = .listStart) (st : List Bool) (ts : List Token) :
    write u A st (tok :: ts) = prepend [.lbrack] (write u A (true :: st) ts) := by
  rw [write]; simp only [hk]

theorem write_listEnd (tok : Token) (hk : tok.kind = .listEnd) (f : Bool) (st : List Bool) (ts : List Token) :
    write u A (f :: st) (tok :: ts) = prepend [.rbrack] (write u A st ts) := by
  rw [write]; simp only [hk, List.tail_cons]

/-- The text of a scalar. -/
theorem valueLex_num {tok : Token} {t : FT} {d : UInt64} (h : Holds t d) (hn : tok.isNil = false) (ht : tok.type = t)
    (hd : tok.data = d) (he : tok.isEnum = false) : valueLex u A tok = .ok (render (numJ u t none d)) := by
  have hnorm := norm_holds h
  have key : ∀ r, (∀ b : Bool, b = false → (if b = true then Out.ok [Lex.null] else r) = r) := by
    rintro r b rfl; rfl
  unfold valueLex
  rw [key _ _ hn, ht, hd, he]
  cases t <;> simp only [Holds] at h
  case bool => rcases h with rfl | rfl <;> rfl
  case float32 =>
    simp only [hnorm]
    show (if special .float32 d = true then Out.ok [Lex.null] else Out.ok [Lex.num (Num.float .float32 d)]) =
      Out.ok (render (if special .float32 d = true then J.null else J.num (Num.float .float32 d)))
    split <;> rfl
  case float64 =>
    simp only [hnorm]
    show (if special .float64 d = true then Out.ok [Lex.null] else Out.ok [Lex.num (Num.float .float64 d)]) =
      Out.ok (render (if special .float64 d = true then J.null else J.num (Num.float .float64 d)))
    split <;> rfl
  all_goals (simp only [hnorm]; rfl)

theorem valueLex_numTok {name : Str} {t : FT} {e : Option EnumT} {d : UInt64} (h : Holds t d) :
    valueLex u A (numTok name t e d) = .ok (render (numJ u t e d)) := by
  cases e with
  | none => exact valueLex_num h rfl rfl rfl rfl
  | some e =>
    unfold valueLex numTok
    have hnorm := norm_holds h
    cases t <;> simp only [Holds] at h <;>
      simp only [Bool.false_eq_true, if_false, numJ, hnorm, if_true] <;>
      first
        | (split <;> rfl)
        | rfl

theorem numTok_name (name : Str) (t : FT) (e : Option EnumT) (d : UInt64) : (numTok name t e d).name = name := by
  cases e <;> rfl

/-- Items of a list. -/
theorem write_items {α : Type} (tok : α → Token) (v : α → List Lex) : ∀ (l : List α),
    (∀ a ∈ l, (tok a).kind = .field ∧ (tok a).name = [] ∧ valueLex u A (tok a) = .ok (v a)) →
    ∀ (f : Bool) (st : List Bool) (e : Token) (_ : e.kind = .listEnd) (ts : List Token),
    write u A (f :: st) (l.map tok ++ (e :: ts)) =
      prepend (outSeq v f l ++ [.rbrack]) (write u A st ts) := by
  intro l
  induction l with
  | nil =>
    intro _ f st e he ts
    simp only [List.map_nil, List.nil_append, outSeq]
    exact write_listEnd e he f st ts
  | cons a l ih =>
    intro h f st e he ts
    obtain ⟨h1, h2, h3⟩ := h a (by simp)
    rw [List.map_cons, List.cons_append, write_item h1 h2 h3, ih (fun a ha => h a (by simp [ha])) false st e he ts,
      prepend_prepend]
    simp [outSeq]

/-- A list field. -/
theorem write_list {name : Str} {t : FT} {isEnum : Bool} {len : Nat} {items : List Token} {o : List Lex} (hn : name ≠ [])
    (ht : len ≠ 0 → ∀ tok : Token, tok.isNil = false → tok.type = t → valueLex u A tok = .ok [])
    (f : Bool) (st : List Bool) (ts : List Token)
    (hi : ∀ ts, len ≠ 0 → write u A (true :: false :: st) (items ++ ({ kind := .listEnd, name } : Token) :: ts) =
      prepend (o ++ [.rbrack]) (write u A (false :: st) ts)) :
    write u A (f :: st) (listToks name t isEnum len items ++ ts) =
      prepend (sepb f ++ (.str (repaired name) :: .colon ::
        (if len = 0 then [.null] else .lbrack :: (o ++ [.rbrack])))) (write u A (false :: st) ts) := by
  unfold listToks
  split
  · rename_i h0
    rw [List.singleton_append]
    rw [write_named (v := [.null]) rfl hn (by simp [valueLex])]
  · rename_i h0
    simp only [List.cons_append, List.append_assoc, List.nil_append]
    rw [write_named (v := []) rfl hn (ht h0 _ rfl rfl), write_listStart _ rfl, hi _ h0, prepend_prepend, prepend_prepend]
    simp

end

theorem valueLex_announce {u : Bool} {A : Bytes → Bytes → Out (List Lex)} {t : FT}
    (h : t = .struct ∨ t = .listStructs ∨ t = .listBytes ∨ t = .listStrings ∨ t = .listAny ∨ t = .map ∨
      ∃ t' d, Holds t' d ∧ t = listOf t') :
    ∀ tok : Token, tok.isNil = false → tok.type = t → valueLex u A tok = .ok [] := by
  intro tok hn ht
  unfold valueLex
  rw [hn, ht]
  rcases h with rfl | rfl | rfl | rfl | rfl | rfl | ⟨t', d, h, rfl⟩
  · rfl
  · rfl
  · rfl
  · rfl
  · rfl
  · rfl
  · cases t' <;> simp only [Holds] at h <;> rfl

theorem valueLex_any {u : Bool} {A : Bytes → Bytes → Out (List Lex)} {al : Bytes → Bytes → List Lex}
    (hal : ∀ h d, A h d = .ok (al h d)) {tok : Token} (hn : tok.isNil = false) (ht : tok.type = .any) :
    valueLex u A tok = .ok (al tok.typeHash tok.bytes) := by
  unfold valueLex
  rw [hn, ht]
  simp [hal]

theorem keyBytes_name {name : Str} {k v : FT} {key : Key} : repaired (entryTok name k v key).keyBytes = keyName key := by
  cases key <;> rfl

theorem entryTok_kind (name : Str) (k v : FT) (key : Key) : (entryTok name k v key).kind = .mapEntry := by
  cases key <;> rfl

theorem entryTok_valueType (name : Str) (k v : FT) (key : Key) : (entryTok name k v key).valueType = v := by
  cases key <;> rfl

theorem entryTok_isNil (name : Str) (k v : FT) (key : Key) : (entryTok name k v key).isNil = false := by
  cases key <;> rfl

theorem entryTok_isEnum (name : Str) (k v : FT) (key : Key) : (entryTok name k v key).isEnum = false := by
  cases key <;> rfl

/-! ### Writing a struct -/

mutual

theorem write_field {env : Env} {u : Bool} {A : Bytes → Bytes → Out (List Lex)} {al : Bytes → Bytes → List Lex}
    (hal : ∀ h d, A h d = .ok (al h d)) (hd : Named env) {name : Str} (hn : name ≠ []) {ty : Ty} (v : Val)
    (hf : Fits env ty v) (f : Bool) (st : List Bool) (ts : List Token) :
    write u A (f :: st) (walkField env name ty v ++ ts) =
      prepend (sepb f ++ (.str (repaired name) :: .colon :: out env u al ty v)) (write u A (false :: st) ts) := by
  cases v with
  | num d =>
    cases hf with
    | @num t e d ht =>
      simp only [walkField, out, List.singleton_append]
      have := write_named (u := u) (A := A) (numTok_kind name t e d) (by rw [numTok_name]; exact hn) (valueLex_numTok ht) f st ts
      rw [numTok_name] at this
      exact this
  | bin b =>
    cases hf with
    | str =>
      simp only [walkField, out, List.singleton_append]
      exact write_named rfl hn (by simp [valueLex]) f st ts
    | bytes =>
      simp only [walkField, out, List.singleton_append]
      exact write_named rfl hn (by simp [valueLex]) f st ts
  | null =>
    cases hf with
    | nil =>
      simp only [walkField, out, List.singleton_append]
      exact write_named rfl hn (by simp [valueLex]) f st ts
    | noAny =>
      simp only [walkField, out, List.singleton_append]
      exact write_named rfl hn (by simp [valueLex]) f st ts
  | obj fs =>
    cases hf with
    | @obj s _ hfs =>
      simp only [walkField, out, List.cons_append, List.append_assoc, List.nil_append]
      rw [write_named (v := []) rfl hn (by simp [valueLex]), write_structStart _ rfl,
        write_fields hal hd (fun d hd => hd) fs hfs true (false :: st) _ rfl, prepend_prepend, prepend_prepend]
      simp
  | nums ds =>
    cases hf with
    | @nums t e _ hds =>
      simp only [walkField, out]
      rw [write_list (o := outSeq (fun d => render (numJ u t e d)) true ds) hn ?_ f st ts ?_]
      · simp only [List.length_eq_zero_iff]
      · intro h0 tok h1 h2
        cases ds with
        | nil => simp at h0
        | cons d ds =>
          exact valueLex_announce (.inr (.inr (.inr (.inr (.inr (.inr ⟨t, d, hds d (by simp), rfl⟩)))))) tok h1 h2
      · intro ts _
        exact write_items _ _ ds (fun d hd => ⟨numTok_kind _ _ _ _, numTok_name _ _ _ _, valueLex_numTok (hds d hd)⟩) true _ _ rfl ts
  | bins bs =>
    cases hf with
    | strs =>
      simp only [walkField, out]
      rw [write_list (o := outSeq (fun b => [.str (repaired b)]) true bs) hn (fun _ => valueLex_announce (by simp)) f st ts]
      · simp only [List.length_eq_zero_iff]
      · intro ts _
        exact write_items _ _ bs (fun d hd => ⟨rfl, rfl, by simp [valueLex]⟩) true _ _ rfl ts
    | binaries =>
      simp only [walkField, out]
      rw [write_list (o := outSeq (fun b => [.str (base64 b)]) true bs) hn (fun _ => valueLex_announce (by simp)) f st ts]
      · simp only [List.length_eq_zero_iff]
      · intro ts _
        exact write_items _ _ bs (fun d hd => ⟨rfl, rfl, by simp [valueLex]⟩) true _ _ rfl ts
  | list l =>
    cases hf with
    | @list s _ hl =>
      simp only [walkField, out]
      rw [write_list (o := outItems env u al s l) hn (fun _ => valueLex_announce (by simp)) f st ts]
      · simp only [List.length_eq_zero_iff]
      · intro ts _
        exact write_structs hal hd l hl true _ _ rfl ts
  | map ks vs =>
    cases hf with
    | @map k v _ _ hk hrise hv =>
      simp only [walkField, out]
      split
      · rw [List.singleton_append]
        exact write_named rfl hn (by simp [valueLex]) f st ts
      · simp only [List.cons_append, List.append_assoc, List.nil_append]
        rw [write_named (v := []) rfl hn (by simp [valueLex]), write_mapStart _ rfl,
          write_entries hal hd vs ks hv true (false :: st) _ rfl, prepend_prepend, prepend_prepend]
        simp
  | any h d =>
    cases hf with
    | any hfit =>
      simp only [walkField, out, List.singleton_append]
      exact write_named rfl hn (valueLex_any hal rfl rfl) f st ts
  | anys l =>
    cases hf with
    | anys hl =>
      simp only [walkField, out]
      rw [write_list (o := outSeq (fun p => al p.1 p.2) true l) hn (fun _ => valueLex_announce (by simp)) f st ts]
      · simp only [List.length_eq_zero_iff]
      · intro ts _
        exact write_items _ _ l (fun d hd => ⟨rfl, rfl, valueLex_any hal rfl rfl⟩) true _ _ rfl ts
termination_by sizeOf v

theorem write_fields {env : Env} {u : Bool} {A : Bytes → Bytes → Out (List Lex)} {al : Bytes → Bytes → List Lex}
    (hal : ∀ h d, A h d = .ok (al h d)) (hd : Named env) {s : Nat} {ds : List Decl} (hds : ∀ d ∈ ds, d ∈ env s)
    (vs : List Val) (hf : FitsAll env ds vs) (f : Bool) (st : List Bool) (e : Token) (he : e.kind = .structEnd)
    (ts : List Token) :
    write u A (f :: st) (walkFields env ds vs ++ (e :: ts)) =
      prepend (outFields env u al f ds vs ++ [.rbrace]) (write u A st ts) := by
  cases vs with
  | nil =>
    cases hf
    simp only [walkFields, outFields, List.nil_append]
    exact write_structEnd e he f st ts
  | cons v vs =>
    cases hf with
    | @cons d ds _ _ hv hvs =>
      simp only [walkFields, outFields, List.append_assoc]
      rw [write_field hal hd (hd s d (hds d (by simp))).1 v hv f st,
        write_fields hal hd (fun d h => hds d (by simp [h])) vs hvs false st e he ts, prepend_prepend]
      simp
termination_by sizeOf vs

theorem write_structs {env : Env} {u : Bool} {A : Bytes → Bytes → Out (List Lex)} {al : Bytes → Bytes → List Lex}
    (hal : ∀ h d, A h d = .ok (al h d)) (hd : Named env) {s : Nat} (l : List Val) (hf : FitsItems env s l)
    (f : Bool) (st : List Bool) (e : Token) (he : e.kind = .listEnd) (ts : List Token) :
    write u A (f :: st) (walkItems env s l ++ (e :: ts)) =
      prepend (outItems env u al s l ++ [.rbrack]) (write u A st ts) := by
  cases l with
  | nil =>
    simp only [walkItems, outItems, List.nil_append]
    exact write_listEnd e he f st ts
  | cons v l =>
    cases hf with
    | @cons _ fs _ hfs hl =>
      simp only [walkItems, walk, outItems, out, List.append_assoc, List.cons_append, List.nil_append]
      rw [write_structStart _ rfl, write_fields hal hd (fun d hd => hd) fs hfs true (f :: st) _ rfl,
        write_structs hal hd l hl f st e he ts, prepend_prepend, prepend_prepend]
      simp
termination_by sizeOf l

theorem write_entries {env : Env} {u : Bool} {A : Bytes → Bytes → Out (List Lex)} {al : Bytes → Bytes → List Lex}
    (hal : ∀ h d, A h d = .ok (al h d)) (hd : Named env) {name : Str} {k : FT} {v : MTy} (vs : List Val) (ks : List Key)
    (hf : FitsVals env v ks vs) (f : Bool) (st : List Bool) (e : Token) (he : e.kind = .mapEnd) (ts : List Token) :
    write u A (f :: st) (walkEntries env name k v ks vs ++ (e :: ts)) =
      prepend (outEntries env u al v f ks vs ++ [.rbrace]) (write u A st ts) := by
  cases vs with
  | nil =>
    cases hf
    simp only [walkEntries, outEntries, List.nil_append]
    exact write_mapEnd e he f st ts
  | cons x vs =>
    cases hf with
    | @cons _ key ks _ _ hx hvs =>
      simp only [walkEntries, outEntries, List.append_assoc]
      have ih := write_entries (u := u) (name := name) (k := k) hal hd vs ks hvs false st e he ts
      have fin : ∀ (tok : Token) (o : List Lex) (more : List Token), tok.kind = .mapEntry →
          repaired tok.keyBytes = keyName key →
          valueLex u A { tok with type := tok.valueType } = .ok [] →
          write u A (false :: st) (more ++ (walkEntries env name k v ks vs ++ e :: ts)) =
            prepend o (write u A (false :: st) (walkEntries env name k v ks vs ++ e :: ts)) →
          write u A (f :: st) (tok :: (more ++ (walkEntries env name k v ks vs ++ e :: ts))) =
            prepend (sepb f ++ (.str (keyName key) :: .colon ::
              (o ++ outEntries env u al v false ks vs)) ++ [.rbrace]) (write u A st ts) := by
        intro tok o more h1 h2 h3 h4
        rw [write_entry h1 h3, h2, h4, ih, prepend_prepend, prepend_prepend]
        simp
      have one : ∀ (tok : Token) (o : List Lex), tok.kind = .mapEntry → repaired tok.keyBytes = keyName key →
          valueLex u A { tok with type := tok.valueType } = .ok o →
          write u A (f :: st) (tok :: (walkEntries env name k v ks vs ++ e :: ts)) =
            prepend (sepb f ++ (.str (keyName key) :: .colon ::
              (o ++ outEntries env u al v false ks vs)) ++ [.rbrace]) (write u A st ts) := by
        intro tok o h1 h2 h3
        rw [write_entry h1 h3, h2, ih, prepend_prepend]
        simp
      cases x with
      | num d =>
        cases hx with
        | @num t _ ht =>
          simp only [walkEntry, outVal, List.singleton_append]
          rw [one { entryTok name k (MTy.num t).ft key with data := d } (render (numJ u t none d)) (by simp [entryTok_kind]) keyBytes_name
            (valueLex_num ht (by simp [entryTok_isNil]) (by simp [entryTok_valueType, MTy.ft]) rfl (by simp [entryTok_isEnum]))]
          simp
      | bin b =>
        cases hx with
        | str =>
          simp only [walkEntry, outVal, List.singleton_append]
          rw [one { entryTok name k MTy.str.ft key with bytes := b } [.str (repaired b)] (by simp [entryTok_kind]) keyBytes_name
            (by simp [valueLex, entryTok_isNil, entryTok_valueType, entryTok_isEnum, MTy.ft])]
          simp
      | any h d =>
        cases hx with
        | any _ =>
          simp only [walkEntry, outVal, List.singleton_append]
          rw [one { entryTok name k MTy.any.ft key with typeHash := h, bytes := d } (al h d) (by simp [entryTok_kind]) keyBytes_name
            (valueLex_any hal (by simp [entryTok_isNil]) (by simp [entryTok_valueType, MTy.ft]))]
          simp
      | obj fs =>
        cases hx with
        | @struct s _ hfs =>
          simp only [walkEntry, outVal, List.cons_append, List.append_assoc]
          have hw := write_fields (u := u) hal hd (fun d hd => hd) fs hfs true (false :: st) { kind := .structEnd } rfl
            (walkEntries env name k (.struct s) ks vs ++ e :: ts)
          have := fin (entryTok name k (MTy.struct s).ft key) (.lbrace :: (outFields env u al true (env s) fs ++ [.rbrace]))
            ({ kind := .structStart } :: (walkFields env (env s) fs ++ [{ kind := .structEnd }])) (entryTok_kind _ _ _ _)
            keyBytes_name (by simp [valueLex, entryTok_isNil, entryTok_valueType, MTy.ft]) (by
              simp only [List.cons_append, List.append_assoc, List.nil_append]
              rw [write_structStart _ rfl, hw, prepend_prepend]
              simp)
          simp only [List.cons_append, List.append_assoc, List.nil_append] at this
          simp only [List.cons_append, List.append_assoc, List.nil_append]
          exact this
      | anys l =>
        cases hx with
        | listAny _ =>
          simp only [walkEntry, outVal, List.cons_append, List.append_assoc, anyToks]
          have hw := write_items (u := u) (A := A)
            (fun p : Bytes × Bytes => ({ kind := .field, type := .any, typeHash := p.1, bytes := p.2 } : Token))
            (fun p => al p.1 p.2) l (fun p _ => ⟨rfl, rfl, valueLex_any hal rfl rfl⟩) true (false :: st) { kind := .listEnd } rfl
            (walkEntries env name k .listAny ks vs ++ e :: ts)
          have := fin (entryTok name k MTy.listAny.ft key) (.lbrack :: (outSeq (fun p => al p.1 p.2) true l ++ [.rbrack]))
            ({ kind := .listStart, type := .listAny } ::
              (l.map (fun p => ({ kind := .field, type := .any, typeHash := p.1, bytes := p.2 } : Token)) ++ [{ kind := .listEnd }]))
            (entryTok_kind _ _ _ _) keyBytes_name (by simp [valueLex, entryTok_isNil, entryTok_valueType, MTy.ft]) (by
              simp only [List.cons_append, List.append_assoc, List.nil_append]
              rw [write_listStart _ rfl, hw, prepend_prepend]
              simp)
          simp only [List.cons_append, List.append_assoc, List.nil_append] at this
          simp only [List.cons_append, List.append_assoc, List.nil_append]
          exact this
      | null => cases hx
      | nums _ => cases hx
      | bins _ => cases hx
      | list _ => cases hx
      | map _ _ => cases hx
termination_by sizeOf vs

end

end Claw.Json
