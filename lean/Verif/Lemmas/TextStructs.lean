import Verif.Lemmas.TextForm

/-!
# Hand-written text: lists of structs
-/

namespace Claw.Text

open Claw.Idl (FT Out numeral)
open Claw.Tok

set_option linter.unusedSimpArgs false

/-! ### What is written for the first of two sequences of tokens -/

/-- The state after tokens. -/
def after (st : WSt) : List Token → WSt
  | [] => st
  | tok :: ts =>
    match tok.kind with
    | .structStart =>
      if st.top then after { st with top := false, stack := true :: st.stack } ts
      else after { st with depth := st.depth + 1, stack := true :: st.stack } ts
    | .structEnd =>
      if 0 < st.depth then after { st with depth := st.depth - 1, stack := st.stack.tail } ts
      else after { st with stack := st.stack.tail } ts
    | .listStart => after { st with stack := true :: st.stack, inArray := true } ts
    | .listEnd => after { st with stack := st.stack.tail, inArray := false } ts
    | .mapStart => after { st with depth := st.depth + 1, stack := true :: st.stack } ts
    | .mapEnd => after { st with depth := st.depth - 1, stack := st.stack.tail } ts
    | .mapEntry => after (notFirst st) ts
    | .field => after (notFirst st) ts

theorem write_append (x : Ext) (o : Opts) : ∀ (as : List Token) (st : WSt) (ts : List Token),
    write x o st (as ++ ts) = write x o st as ++ write x o (after st as) ts := by
  intro as
  induction as with
  | nil => intro st ts; simp [write, after]
  | cons tok as ih =>
    intro st ts
    rw [List.cons_append, write, write, after]
    cases tok.kind <;> simp only
    case structStart => split <;> simp [ih]
    case structEnd => split <;> simp [ih]
    all_goals simp [ih]

theorem after_append : ∀ (as : List Token) (st : WSt) (ts : List Token), after st (as ++ ts) = after (after st as) ts := by
  intro as
  induction as with
  | nil => intro st ts; rfl
  | cons tok as ih =>
    intro st ts
    rw [List.cons_append, after, after]
    cases tok.kind <;> simp only
    case structStart => split <;> simp [ih]
    case structEnd => split <;> simp [ih]
    all_goals simp [ih]

theorem after_field_tok {tok : Token} (h : tok.kind = .field) (st : WSt) (ts : List Token) :
    after st (tok :: ts) = after (notFirst st) ts := by
  rw [after, h]

theorem after_end {k : Nat} {st : WSt} (h : Ok (k + 1) st) : Ok k (after st [{ kind := .structEnd }]) := by
  simp only [after, h.depth, Nat.zero_lt_succ, if_true]
  exact ⟨h.inArray, h.top, by simp⟩

mutual

theorem after_field {env : Env} {name : Str} {ty : Ty} (v : Val) (hf : Fits env ty v) (hr : readable env ty v = true) {k : Nat}
    {st : WSt} (h : Ok k st) : Ok k (after st (walkField env name ty v)) := by
  cases v with
  | num d =>
    cases hf with
    | @num t e _ _ =>
      simp only [walkField]
      rw [after_field_tok (by unfold numTok; split <;> rfl)]
      exact ok_notFirst h
  | bin b => cases hf <;> exact ok_notFirst h
  | obj fs =>
    cases hf with
    | @obj s _ hfs =>
      have h0 := ok_notFirst h
      simp only [walkField, List.cons_append]
      rw [after_field_tok rfl, after]
      simp only
      rw [if_neg (by rw [h0.top]; decide)]
      have h1 : Ok (k + 1) { notFirst st with depth := (notFirst st).depth + 1, stack := true :: (notFirst st).stack } :=
        ⟨h0.inArray, h0.top, by simp [h0.depth]⟩
      have h2 := after_fields fs hfs (by simpa [readable] using hr) h1
      rw [after_append]
      exact after_end h2
  | _ => simp [readable] at hr
termination_by sizeOf v

theorem after_fields {env : Env} {ds : List Decl} (vs : List Val) (hf : FitsAll env ds vs) (hr : readables env ds vs = true)
    {k : Nat} {st : WSt} (h : Ok k st) : Ok k (after st (walkFields env ds vs)) := by
  cases vs with
  | nil => cases hf; exact h
  | cons v vs =>
    cases hf with
    | @cons d ds _ _ hv hvs =>
      simp only [readables, Bool.and_eq_true] at hr
      simp only [walkFields]
      rw [after_append]
      exact after_fields vs hvs hr.2 (after_field v hv hr.1 h)
termination_by sizeOf vs

end

/-- The text of a struct is that of its fields. -/
theorem marshal_fields {x : Ext} {o : Opts} {env : Env} {s : Nat} {fs : List Val} (hf : FitsAll env (env s) fs)
    (hr : readables env (env s) fs = true) :
    marshal x o env s fs = write x o { stack := [true], top := false } (walkFields env (env s) fs) := by
  have h0 : Ok 0 { stack := [true], top := false } := ⟨rfl, rfl, rfl⟩
  have h1 := after_fields fs hf hr h0
  have hw : marshal x o env s fs =
      write x o { stack := [true], top := false } (walkFields env (env s) fs ++ [{ kind := .structEnd }]) := rfl
  rw [hw, write_append]
  have : write x o (after { stack := [true], top := false } (walkFields env (env s) fs)) [{ kind := .structEnd }] = [] := by
    rw [write]
    simp only [h1.depth, Nat.lt_irrefl, if_false]
    rw [write]
  rw [this, List.append_nil]

/-- A closing brace in a list of structs, on a line of its own. -/
theorem R_closeItem {x : Ext} (T : Bytes) : R x [.nested, .rest [[10]], .root] (lit "},\n" ++ T) =
    { kind := .structEnd } :: R x [.elems, .root] T := by
  unfold R
  rw [show lit "},\n" ++ T = lit "}," ++ 10 :: T from rfl, lines_line (by decide)]
  have hw : words (lit "},") = [lit "},"] := words_solid (solid_graphic (by decide)) (by decide)
  rw [run_step hw (by decide) (by decide)]
  have : step x (lit "},") [.nested, .rest [[10]], .root] = ([{ kind := .structEnd }], some [.elems, .root]) := by
    rw [step]
    simp only [items, hw]
    rw [if_pos (by decide), resume, elemsLine, if_neg (by decide), if_pos (by decide), elemsLine]
    rfl
  rw [this]
  rfl

/-- An opening brace in a list, on a line of its own. -/
theorem R_openItem {x : Ext} (T : Bytes) : R x [.elems, .root] (lit "{\n" ++ T) =
    { kind := .structStart } :: R x [.nested, .rest [[10]], .root] T := by
  unfold R
  rw [show lit "{\n" ++ T = lit "{" ++ 10 :: T from rfl, lines_line (by decide)]
  have hw : words (lit "{") = [lit "{"] := words_solid (solid_graphic (by decide)) (by decide)
  rw [run_step hw (by decide) (by decide)]
  have : step x (lit "{") [.elems, .root] = ([{ kind := .structStart }], some [.nested, .rest [[10]], .root]) := by
    rw [step]
    simp only [items, hw]
    rw [List.singleton_append, elemsLine, if_neg (by decide), if_neg (by decide), if_pos (by decide)]
  rw [this]
  rfl

/-- The end of a list of structs. -/
theorem R_closeList {x : Ext} (T : Bytes) : R x [.elems, .root] (lit "],\n" ++ T) =
    { kind := .listEnd } :: R x [.root] T := by
  unfold R
  rw [show lit "],\n" ++ T = lit "]," ++ 10 :: T from rfl, lines_line (by decide)]
  have hw : words (lit "],") = [lit "],"] := words_solid (solid_graphic (by decide)) (by decide)
  rw [run_step hw (by decide) (by decide)]
  have : step x (lit "],") [.elems, .root] = ([{ kind := .listEnd }], some [.root]) := by
    rw [step]
    simp only [items, hw]
    rw [List.singleton_append, elemsLine, if_pos (by decide)]
  rw [this]
  rfl

section
variable {x : Ext} {o : Opts} {env : Env} {ig : Bool}

/-- A token that is written as a given text that ends in a comma and a newline. -/
def textTok (E : Bytes) : Token := { kind := .field, type := .uint64, isEnum := true, enumName := E }

/-- One struct of a list. -/
theorem ingest_item (hb : Blank o) (hx : FloatsOk x) (hna : NamedAll env) (hd : Distinct env) {s : Nat} {fs : List Val}
    (hf : FitsAll env (env s) fs) (hp : plainAll fs = true) (hr : readables env (env s) fs = true) (E : Bytes) :
    ∃ N, ∀ n, N ≤ n → ingestFrom env ig n s (fresh env s)
      (R x [.elems, .root] (lit "{\n" ++ marshal x o env s fs ++ lit "},\n" ++ (E ++ lit ",\n"))) =
      .ok (backFields x o env (env s) fs, R x [.elems, .root] (E ++ lit ",\n")) := by
  have h0 : Ok 0 { stack := [true], top := false } := ⟨rfl, rfl, rfl⟩
  have hw : ∀ k st, Ok k st → write x o st [textTok (lit "},\n" ++ E)] = lit "},\n" ++ (E ++ lit ",\n") := by
    intro k st h
    obtain ⟨h1, h2, h3⟩ := h
    have h4 : sepText st = [] := by
      unfold sepText
      rw [h1]
      split <;> rfl
    have h5 : fieldText x o st (textTok (lit "},\n" ++ E)) = lit "},\n" ++ E ++ lit ",\n" := by
      unfold textTok fieldText valueText
      simp [h1]
    rw [write]
    show sepText st ++ [] ++ fieldText x o st (textTok (lit "},\n" ++ E)) ++ write x o (notFirst st) [] = _
    rw [h4, h5, write]
    simp
  obtain ⟨st', hst', N, hN⟩ := tfields (x := x) (o := o) (ig := ig) hb hx hna hd (s := s) (pds := []) (ds := env s) rfl fs hf hp
    (fr := [.nested, .rest [[10]], .root]) rfl (k := 0) (st := { stack := [true], top := false }) h0
    [textTok (lit "},\n" ++ E)]
    (fun st' h => ⟨_, _, by rw [hw 0 st' h, R_closeItem], rfl⟩) [] rfl
  refine ⟨N + 1, fun n hn' => ?_⟩
  obtain ⟨n, rfl⟩ : ∃ m, n = m + 1 := ⟨n - 1, by omega⟩
  have h1 := (hN n (by omega)).1 hr
  rw [write_append, hw 0 _ (after_fields fs hf hr h0), hw 0 _ hst', ← marshal_fields hf hr, R_closeItem] at h1
  rw [List.append_assoc, List.append_assoc, R_openItem, ingestFrom]
  simp only [ne_eq, not_true_eq_false, if_false]
  simp only [List.nil_append] at h1
  rw [show fresh env s = (env s).map (fun d => d.ty.default) from rfl, h1]
  rfl

/-- The items of a list of structs. -/
def itemsText (x : Ext) (o : Opts) (env : Env) (s : Nat) (fss : List (List Val)) : Bytes :=
  fss.flatMap fun fs => lit "{\n" ++ marshal x o env s fs ++ lit "},\n"

theorem ingest_items (hb : Blank o) (hx : FloatsOk x) (hna : NamedAll env) (hd : Distinct env) {s : Nat} :
    ∀ (fss : List (List Val)), (∀ fs ∈ fss, FitsAll env (env s) fs ∧ plainAll fs = true ∧ readables env (env s) fs = true) →
    ∀ (old : List Val), ∃ N, ∀ n, N ≤ n → ingestItems env ig n s (.list old)
      (R x [.elems, .root] (itemsText x o env s fss ++ lit "],\n")) =
      .ok (.list (old ++ fss.map fun fs => .obj (backFields x o env (env s) fs)), R x [.root] []) := by
  intro fss
  induction fss with
  | nil =>
    intro _ old
    refine ⟨1, fun n hn' => ?_⟩
    obtain ⟨n, rfl⟩ : ∃ m, n = m + 1 := ⟨n - 1, by omega⟩
    have := R_closeList (x := x) []
    rw [List.append_nil] at this
    rw [show itemsText x o env s [] ++ lit "],\n" = lit "],\n" from rfl, this, ingestItems]
    simp
  | cons fs fss ih =>
    intro h old
    obtain ⟨h1, h2, h3⟩ := h fs (by simp)
    obtain ⟨N1, hN1⟩ := ih (fun fs hfs => h fs (by simp [hfs])) (old ++ [.obj (backFields x o env (env s) fs)])
    have he : ∃ E, itemsText x o env s fss ++ lit "],\n" = E ++ lit ",\n" :=
      ⟨itemsText x o env s fss ++ lit "]", by rw [List.append_assoc]; rfl⟩
    obtain ⟨E, hE⟩ := he
    obtain ⟨N2, hN2⟩ := ingest_item (ig := ig) hb hx hna hd h1 h2 h3 E
    refine ⟨max N1 N2 + 1, fun n hn' => ?_⟩
    obtain ⟨n, rfl⟩ : ∃ m, n = m + 1 := ⟨n - 1, by omega⟩
    have hn1 := hN1 n (by omega)
    have hn2 := hN2 n (by omega)
    have ht : itemsText x o env s (fs :: fss) ++ lit "],\n" =
        lit "{\n" ++ marshal x o env s fs ++ lit "},\n" ++ (E ++ lit ",\n") := by
      rw [← hE]
      simp [itemsText]
    rw [hE] at hn1
    rw [ht]
    have hop : R x [.elems, .root] (lit "{\n" ++ marshal x o env s fs ++ lit "},\n" ++ (E ++ lit ",\n")) =
        { kind := .structStart } :: R x [.nested, .rest [[10]], .root] (marshal x o env s fs ++ lit "},\n" ++ (E ++ lit ",\n")) := by
      rw [List.append_assoc, List.append_assoc, R_openItem, List.append_assoc]
    rw [hop] at hn2 ⊢
    rw [ingestItems, if_neg (by decide), hn2]
    simp only [appendRec]
    rw [hn1]
    simp

end

end Claw.Text
