import Verif.Lemmas.JsonWrite

/-!
# When what the JSON writer writes is JSON
-/

namespace Claw.Json

open Claw.Idl (FT Out)
open Claw.Tok

set_option linter.unusedSimpArgs false

theorem renderJs_ofList {α : Type} (f : α → J) : ∀ (l : List α) (first : Bool),
    renderJs first (Js.ofList f l) = outSeq (fun a => render (f a)) first l := by
  intro l
  induction l with
  | nil => intro first; rfl
  | cons a l ih => intro first; simp only [Js.ofList, renderJs, outSeq, ih, sepb]

mutual

theorem out_tree {env : Env} {u : Bool} {al : Bytes → Bytes → List Lex} {anyJ : Bytes → Bytes → J}
    (hal : ∀ h d, al h d = render (anyJ h d)) {ty : Ty} (v : Val) (hf : Fits env ty v) (hs : single v = true) :
    out env u al ty v = render (tree env u anyJ ty v) := by
  cases v with
  | num d => cases hf; rfl
  | bin b => cases hf <;> rfl
  | null => rfl
  | obj fs =>
    cases hf with
    | @obj s _ hfs =>
      simp only [single] at hs
      simp only [out, tree, render, outFields_tree hal fs hfs hs true]
  | nums ds =>
    cases hf
    simp only [out, tree]
    split
    · rfl
    · simp only [render, renderJs_ofList]
  | bins bs =>
    cases hf <;>
    · simp only [out, tree]
      split
      · rfl
      · simp only [render, renderJs_ofList]
  | list l =>
    cases hf with
    | @list s _ hl =>
      simp only [single, Bool.and_eq_true, decide_eq_true_eq] at hs
      simp only [out, tree]
      split
      · rfl
      · simp only [render, outItems_tree hal l hl hs.1 hs.2]
  | map ks vs =>
    cases hf with
    | @map k v _ _ hk hr hv =>
      simp only [single] at hs
      simp only [out, tree]
      split
      · rfl
      · simp only [render, outEntries_tree hal vs ks hv hs true]
  | any h d => simp only [out, tree, hal]
  | anys l =>
    simp only [out, tree]
    split
    · rfl
    · simp only [render, renderJs_ofList, hal]
termination_by sizeOf v

theorem outFields_tree {env : Env} {u : Bool} {al : Bytes → Bytes → List Lex} {anyJ : Bytes → Bytes → J}
    (hal : ∀ h d, al h d = render (anyJ h d)) {ds : List Decl} (vs : List Val) (hf : FitsAll env ds vs)
    (hs : singles vs = true) (first : Bool) :
    outFields env u al first ds vs = renderMs first (treeFields env u anyJ ds vs) := by
  cases vs with
  | nil => cases hf; rfl
  | cons v vs =>
    cases hf with
    | cons hv hvs =>
      simp only [singles, Bool.and_eq_true] at hs
      simp only [outFields, treeFields, renderMs, out_tree hal v hv hs.1, outFields_tree hal vs hvs hs.2 false, sepb]
termination_by sizeOf vs

theorem outItems_tree {env : Env} {u : Bool} {al : Bytes → Bytes → List Lex} {anyJ : Bytes → Bytes → J}
    (hal : ∀ h d, al h d = render (anyJ h d)) {s : Nat} (l : List Val) (hf : FitsItems env s l)
    (hl : l.length ≤ 1) (hs : singles l = true) :
    outItems env u al s l = renderJs true (treeItems env u anyJ s l) := by
  cases l with
  | nil => rfl
  | cons v l =>
    cases l with
    | cons _ _ => simp at hl
    | nil =>
      cases hf with
      | @cons _ fs _ hfs _ =>
        simp only [singles, Bool.and_eq_true] at hs
        simp only [outItems, treeItems, renderJs, out_tree hal (.obj fs) (.obj hfs) hs.1]
        rfl
termination_by sizeOf l

theorem outEntries_tree {env : Env} {u : Bool} {al : Bytes → Bytes → List Lex} {anyJ : Bytes → Bytes → J}
    (hal : ∀ h d, al h d = render (anyJ h d)) {v : MTy} (vs : List Val) (ks : List Key) (hf : FitsVals env v ks vs)
    (hs : singles vs = true) (first : Bool) :
    outEntries env u al v first ks vs = renderMs first (treeEntries env u anyJ v ks vs) := by
  cases vs with
  | nil => cases hf; rfl
  | cons x vs =>
    cases hf with
    | @cons _ key ks _ _ hx hvs =>
      simp only [singles, Bool.and_eq_true] at hs
      simp only [outEntries, treeEntries, renderMs, outEntries_tree hal vs ks hvs hs.2 false, sepb]
      have : outVal env u al v x = render (treeVal env u anyJ v x) := by
        cases x with
        | num d => cases hx; rfl
        | bin b => rfl
        | obj fs =>
          cases hx with
          | @struct s _ hfs =>
            have hs1 := hs.1
            simp only [single] at hs1
            simp only [outVal, treeVal, render, outFields_tree hal fs hfs hs1 true]
        | any h d => simp only [outVal, treeVal, hal]
        | anys l => simp only [outVal, treeVal, render, renderJs_ofList, hal]
        | null => cases hx
        | nums _ => cases hx
        | bins _ => cases hx
        | list _ => cases hx
        | map _ _ => cases hx
      rw [this]
termination_by sizeOf vs

end

/-! ### Any -/

theorem marshal_out {env : Env} {u : Bool} {A : Bytes → Bytes → Out (List Lex)} {al : Bytes → Bytes → List Lex}
    (hal : ∀ h d, A h d = .ok (al h d)) (hd : Named env) {s : Nat} {fs : List Val} (hf : FitsAll env (env s) fs) :
    write u A [] (walk env s (.obj fs)) = .ok (.lbrace :: (outFields env u al true (env s) fs ++ [.rbrace])) := by
  simp only [walk, List.cons_append]
  rw [write_structStart _ rfl, write_fields hal hd (fun d hd => hd) fs hf true [] _ rfl []]
  simp [write, prepend]

theorem fallback_tree (hash data : Bytes) : fallback hash data =
    render (.obj (.cons (lit "@type") (.str (hexOf hash)) (.cons (lit "@value") (.str (base64 data)) .nil))) := rfl

theorem renderMs_false (m : Ms) : renderMs false m = (if renderMs true m = [] then [] else [.comma]) ++ renderMs true m := by
  cases m with
  | nil => rfl
  | cons n j m => simp [renderMs]

theorem inject_tree (hash : Bytes) (name : Str) (m : Ms) : inject hash name (render (.obj m)) =
    render (.obj (.cons (lit "@type") (.str (hexOf hash)) (.cons (lit "@fieldType") (.str name) m))) := by
  simp only [render, inject]
  rw [if_neg (by simp)]
  simp only [renderMs, render]
  rw [renderMs_false]
  cases hm : renderMs true m with
  | nil => simp
  | cons a l => simp

/-- The text of an Any that holds only structs whose lists have at most one struct. -/
theorem anyLex_tree {env : Env} {u : Bool} {dec : AnyDec} (hd : Named env) (hdec : DecFits env dec)
    (hs : ∀ hash data s fs name, dec hash data = some (s, fs, name) → singles fs = true) :
    ∀ n hash data, anyLex env u dec n hash data = .ok (render (anyTree env u dec n hash data)) := by
  intro n
  induction n with
  | zero => intro hash data; simp only [anyLex, anyTree, fallback_tree]
  | succ n ih =>
    intro hash data
    simp only [anyLex, anyTree]
    cases h : dec hash data with
    | none => simp only [fallback_tree]
    | some p =>
      obtain ⟨s, fs, name⟩ := p
      simp only
      rw [marshal_out ih hd (hdec _ _ _ _ _ h)]
      simp only
      rw [outFields_tree (fun _ _ => rfl) fs (hdec _ _ _ _ _ h) (hs _ _ _ _ _ h) true, ← inject_tree]
      rfl

/-- The text of an Any is there, and begins with a brace. -/
theorem anyLex_ok {env : Env} {u : Bool} {dec : AnyDec} (hd : Named env) (hdec : DecFits env dec) :
    ∀ n, ∃ al : Bytes → Bytes → List Lex, (∀ hash data, anyLex env u dec n hash data = .ok (al hash data)) ∧
      ∀ hash data, ∃ r, al hash data = .lbrace :: r := by
  intro n
  induction n with
  | zero => exact ⟨fallback, fun _ _ => rfl, fun _ _ => ⟨_, rfl⟩⟩
  | succ n ih =>
    obtain ⟨al, h1, _⟩ := ih
    refine ⟨fun hash data => match dec hash data with
      | none => fallback hash data
      | some (s, fs, name) => inject hash name (.lbrace :: (outFields env u al true (env s) fs ++ [.rbrace])), ?_, ?_⟩
    · intro hash data
      simp only [anyLex]
      cases h : dec hash data with
      | none => rfl
      | some p =>
        obtain ⟨s, fs, name⟩ := p
        simp only
        rw [marshal_out h1 hd (hdec _ _ _ _ _ h)]
    · intro hash data
      simp only
      cases h : dec hash data with
      | none => exact ⟨_, rfl⟩
      | some p =>
        obtain ⟨s, fs, name⟩ := p
        simp only [inject]
        rw [if_neg (by simp)]
        exact ⟨_, rfl⟩

/-! ### Two objects without a comma between them -/

/-- A closing brace right before an opening one. -/
def glued : List Lex → Bool
  | .rbrace :: .lbrace :: _ => true
  | _ :: r => glued r
  | [] => false

theorem glued_cons {l : Lex} {r : List Lex} (h : glued (l :: r) = false) : glued r = false := by
  cases l <;> cases r <;> first | rfl | simpa [glued] using h | skip
  case rbrace.cons a r => cases a <;> first | simpa [glued] using h | simp [glued] at h

theorem glued_of_cons {l : Lex} {r : List Lex} (h : glued r = true) : glued (l :: r) = true := by
  cases hg : glued (l :: r) with
  | true => rfl
  | false => rw [glued_cons hg] at h; exact h

theorem glued_right {a : List Lex} {b : List Lex} (h : glued b = true) : glued (a ++ b) = true := by
  induction a with
  | nil => exact h
  | cons l a ih => exact glued_of_cons ih

theorem glued_left {a : List Lex} (b : List Lex) (h : glued a = true) : glued (a ++ b) = true := by
  induction a with
  | nil => simp [glued] at h
  | cons l a ih =>
    cases a with
    | nil => cases l <;> simp [glued] at h
    | cons l' a =>
      by_cases hp : l = .rbrace ∧ l' = .lbrace
      · obtain ⟨rfl, rfl⟩ := hp; rfl
      · have : glued (l :: l' :: a) = glued (l' :: a) := by
          cases l <;> try rfl
          cases l' <;> first | rfl | simp at hp
        rw [this] at h
        exact glued_of_cons (ih h)

theorem glued_skip {l : Lex} (hl : l ≠ .rbrace) (r : List Lex) : glued (l :: r) = glued r := by
  cases l <;> first | rfl | exact absurd rfl hl

mutual

/-- In the text of a JSON value no two objects touch. -/
theorem render_apart (j : J) (rest : List Lex) (h : glued (.rbrace :: rest) = false) : glued (render j ++ rest) = false := by
  cases j with
  | null => exact (glued_skip (l := .null) (by simp) rest).trans (glued_cons h)
  | bool b =>
    cases b
    · exact (glued_skip (l := .fls) (by simp) rest).trans (glued_cons h)
    · exact (glued_skip (l := .tru) (by simp) rest).trans (glued_cons h)
  | num n => exact (glued_skip (l := .num n) (by simp) rest).trans (glued_cons h)
  | str b => exact (glued_skip (l := .str b) (by simp) rest).trans (glued_cons h)
  | arr l =>
    simp only [render, List.cons_append, List.append_assoc, List.nil_append]
    rw [glued_skip (by simp)]
    exact glued_cons (renderJs_apart l true (.rbrack :: rest)
      (by rw [show glued (.rbrace :: .rbrack :: rest) = glued rest from rfl]; exact glued_cons h)).2
  | obj m =>
    simp only [render, List.cons_append, List.append_assoc, List.nil_append]
    rw [glued_skip (by simp)]
    exact glued_cons (renderMs_apart m true (.rbrace :: rest) (by
      rw [show glued (.rbrace :: .rbrace :: rest) = glued (.rbrace :: rest) from rfl]; exact h)).2
termination_by sizeOf j

theorem renderJs_apart (l : Js) (first : Bool) (rest : List Lex) (h : glued (.rbrace :: rest) = false) :
    (first = false → glued (.rbrace :: (renderJs first l ++ rest)) = false) ∧
    glued (.null :: (renderJs first l ++ rest)) = false := by
  cases l with
  | nil => exact ⟨fun _ => h, by rw [glued_skip (by simp)]; exact glued_cons h⟩
  | cons j l =>
    have h1 := (renderJs_apart l false rest h).1 rfl
    have h2 := render_apart j _ h1
    simp only [renderJs, List.append_assoc]
    cases first with
    | true => exact ⟨fun h => absurd h (by simp), by simpa [glued] using h2⟩
    | false => exact ⟨fun _ => by simpa [glued] using h2, by simpa [glued] using h2⟩
termination_by sizeOf l

theorem renderMs_apart (m : Ms) (first : Bool) (rest : List Lex) (h : glued (.rbrace :: rest) = false) :
    (first = false → glued (.rbrace :: (renderMs first m ++ rest)) = false) ∧
    glued (.null :: (renderMs first m ++ rest)) = false := by
  cases m with
  | nil => exact ⟨fun _ => h, by rw [glued_skip (by simp)]; exact glued_cons h⟩
  | cons name j m =>
    have h1 := (renderMs_apart m false rest h).1 rfl
    have h2 := render_apart j _ h1
    simp only [renderMs, List.append_assoc, List.cons_append]
    cases first with
    | true => exact ⟨fun h => absurd h (by simp), by simpa [glued] using h2⟩
    | false => exact ⟨fun _ => by simpa [glued] using h2, by simpa [glued] using h2⟩
termination_by sizeOf m

end

theorem wellFormed_apart {ls : List Lex} (h : WellFormed ls) : glued ls = false := by
  obtain ⟨j, rfl⟩ := h
  have := render_apart j [] rfl
  rwa [List.append_nil] at this

mutual

/-- A list of two or more structs, at any depth, makes objects touch. -/
theorem out_glued {env : Env} {u : Bool} {al : Bytes → Bytes → List Lex} {ty : Ty} (v : Val) (hf : Fits env ty v)
    (hs : single v = false) : glued (out env u al ty v) = true := by
  cases v with
  | obj fs =>
    cases hf with
    | @obj s _ hfs =>
      simp only [single] at hs
      simp only [out]
      exact glued_of_cons (glued_left _ (outFields_glued fs hfs hs true))
  | list l =>
    cases hf with
    | @list s _ hl =>
      simp only [single, Bool.and_eq_false_iff, decide_eq_false_iff_not] at hs
      simp only [out]
      split
      · rename_i h; subst h; simp [singles] at hs
      · refine glued_of_cons (glued_left _ ?_)
        rcases hs with hs | hs
        · match l, hl with
          | [], _ => simp at hs
          | [_], _ => simp at hs
          | _ :: _ :: l, .cons h1 (.cons h2 h3) =>
            simp only [outItems, out, List.cons_append, List.append_assoc, List.nil_append]
            exact glued_of_cons (glued_right rfl)
        · exact outItems_glued l hl hs
  | map ks vs =>
    cases hf with
    | @map k v _ _ hk hr hv =>
      simp only [single] at hs
      simp only [out]
      split
      · rename_i h; subst h; cases hv; simp [singles] at hs
      · exact glued_of_cons (glued_left _ (outEntries_glued vs ks hv hs true))
  | num d => simp [single] at hs
  | bin b => simp [single] at hs
  | null => simp [single] at hs
  | nums ds => simp [single] at hs
  | bins bs => simp [single] at hs
  | any h d => simp [single] at hs
  | anys l => simp [single] at hs
termination_by sizeOf v

theorem outFields_glued {env : Env} {u : Bool} {al : Bytes → Bytes → List Lex} {ds : List Decl} (vs : List Val)
    (hf : FitsAll env ds vs) (hs : singles vs = false) (first : Bool) :
    glued (outFields env u al first ds vs) = true := by
  cases vs with
  | nil => simp [singles] at hs
  | cons v vs =>
    cases hf with
    | cons hv hvs =>
      simp only [singles, Bool.and_eq_false_iff] at hs
      simp only [outFields]
      refine glued_right (glued_of_cons (glued_of_cons ?_))
      rcases hs with hs | hs
      · exact glued_left _ (out_glued v hv hs)
      · exact glued_right (outFields_glued vs hvs hs false)
termination_by sizeOf vs

theorem outItems_glued {env : Env} {u : Bool} {al : Bytes → Bytes → List Lex} {s : Nat} (l : List Val)
    (hf : FitsItems env s l) (hs : singles l = false) : glued (outItems env u al s l) = true := by
  cases l with
  | nil => simp [singles] at hs
  | cons v l =>
    cases hf with
    | @cons _ fs _ hfs hl =>
      simp only [singles, Bool.and_eq_false_iff] at hs
      simp only [outItems]
      rcases hs with hs | hs
      · exact glued_left _ (out_glued (.obj fs) (.obj hfs) hs)
      · exact glued_right (outItems_glued l hl hs)
termination_by sizeOf l

theorem outEntries_glued {env : Env} {u : Bool} {al : Bytes → Bytes → List Lex} {v : MTy} (vs : List Val) (ks : List Key)
    (hf : FitsVals env v ks vs) (hs : singles vs = false) (first : Bool) :
    glued (outEntries env u al v first ks vs) = true := by
  cases vs with
  | nil => simp [singles] at hs
  | cons x vs =>
    cases hf with
    | @cons _ key ks _ _ hx hvs =>
      simp only [singles, Bool.and_eq_false_iff] at hs
      simp only [outEntries]
      refine glued_right (glued_of_cons (glued_of_cons ?_))
      rcases hs with hs | hs
      · refine glued_left _ ?_
        cases x with
        | obj fs =>
          cases hx with
          | @struct s _ hfs =>
            simp only [single] at hs
            simp only [outVal]
            exact glued_of_cons (glued_left _ (outFields_glued fs hfs hs true))
        | num d => simp [single] at hs
        | bin b => simp [single] at hs
        | null => simp [single] at hs
        | nums ds => simp [single] at hs
        | bins bs => simp [single] at hs
        | any h d => simp [single] at hs
        | anys l => simp [single] at hs
        | list _ => cases hx
        | map _ _ => cases hx
      · exact glued_right (outEntries_glued vs ks hvs hs false)
termination_by sizeOf vs

end

end Claw.Json
