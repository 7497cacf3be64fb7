import Verif.Model.GoStr

/-! # Lemmas about the string functions -/

namespace Claw

/-- Does `sub` occur in `s`? -/
def Occurs (sub s : Str) : Prop := ∃ a b, s = a ++ sub ++ b

theorem index_isSome (sub : Str) : ∀ s : Str, (Str.index sub s).isSome = true ↔ Occurs sub s := by
  intro s
  induction s with
  | nil =>
    constructor
    · intro h
      simp only [Str.index] at h
      split at h
      · rename_i hp
        have : sub = [] := by
          cases sub with
          | nil => rfl
          | cons a t => simp [List.isPrefixOf] at hp
        exact ⟨[], [], by simp [this]⟩
      · cases h
    · rintro ⟨a, b, h⟩
      have : sub = [] := by
        have := congrArg List.length h
        simp at this
        exact List.length_eq_zero_iff.mp (by omega)
      simp [Str.index, this]
  | cons c s ih =>
    constructor
    · intro h
      simp only [Str.index] at h
      split at h
      · rename_i hp
        obtain ⟨b, hb⟩ := List.isPrefixOf_iff_prefix.mp hp
        exact ⟨[], b, by simp [hb]⟩
      · simp only [Option.isSome_map] at h
        obtain ⟨a, b, hab⟩ := ih.mp h
        exact ⟨c :: a, b, by simp [hab]⟩
    · rintro ⟨a, b, h⟩
      simp only [Str.index]
      split
      · rfl
      · rename_i hp
        simp only [Option.isSome_map]
        apply ih.mpr
        cases a with
        | nil =>
          exfalso
          apply hp
          rw [List.isPrefixOf_iff_prefix]
          exact ⟨b, by simp [h]⟩
        | cons x a =>
          simp only [List.cons_append] at h
          injection h with _ h
          exact ⟨a, b, by simpa using h⟩

theorem contains_iff (s sub : Str) : Str.contains s sub = true ↔ Occurs sub s :=
  index_isSome sub s

/-! ## Paths -/

open Str

theorem cut_inj {a a' x x' : Str} (h : a ++ slash :: x = a' ++ slash :: x')
    (ha : slash ∉ a) (ha' : slash ∉ a') : a = a' ∧ x = x' := by
  induction a generalizing a' with
  | nil =>
    cases a' with
    | nil => simpa using h
    | cons c a' =>
      simp only [List.nil_append, List.cons_append, List.cons.injEq] at h
      exact absurd (by rw [h.1]; simp) ha'
  | cons c a ih =>
    cases a' with
    | nil =>
      simp only [List.nil_append, List.cons_append, List.cons.injEq] at h
      exact absurd (by rw [h.1]; simp) ha
    | cons c' a' =>
      simp only [List.cons_append, List.cons.injEq] at h
      obtain ⟨h1, h2⟩ := ih h.2 (fun m => ha (by simp [m])) (fun m => ha' (by simp [m]))
      exact ⟨by rw [h.1, h1], h2⟩

/-- `a/b/c`. -/
def path3 (a b c : Str) : Str := a ++ lit "/" ++ b ++ lit "/" ++ c

theorem path3_eq (a b c : Str) : path3 a b c = a ++ slash :: (b ++ slash :: c) := by
  have : lit "/" = [slash] := by decide +kernel
  simp [path3, this]

theorem path3_inj {a b c a' b' c' : Str} (h : path3 a b c = path3 a' b' c')
    (ha : slash ∉ a) (hb : slash ∉ b) (ha' : slash ∉ a') (hb' : slash ∉ b') :
    a = a' ∧ b = b' ∧ c = c' := by
  rw [path3_eq, path3_eq] at h
  obtain ⟨h1, h2⟩ := cut_inj h ha ha'
  obtain ⟨h3, h4⟩ := cut_inj h2 hb hb'
  exact ⟨h1, h3, h4⟩

theorem splitSlash_ne_nil (s : Str) : splitSlash s ≠ [] := by
  cases s with
  | nil => simp [splitSlash]
  | cons c s =>
    simp only [splitSlash]
    split
    · simp
    · split <;> simp

theorem splitSlash_free {a : Str} (h : slash ∉ a) : splitSlash a = [a] := by
  induction a with
  | nil => rfl
  | cons c a ih =>
    simp only [List.mem_cons, not_or] at h
    rw [splitSlash, ih h.2]
    have hc : ¬ c = slash := fun e => h.1 e.symm
    simp [hc]

theorem splitSlash_cut {a : Str} (x : Str) (h : slash ∉ a) :
    splitSlash (a ++ slash :: x) = a :: splitSlash x := by
  induction a with
  | nil =>
    rw [List.nil_append, splitSlash]
    cases hx : splitSlash x with
    | nil => exact absurd hx (splitSlash_ne_nil x)
    | cons p ps => simp
  | cons c a ih =>
    simp only [List.mem_cons, not_or] at h
    rw [List.cons_append, splitSlash, ih h.2]
    have hc : ¬ c = slash := fun e => h.1 e.symm
    simp [hc]

/-- Joining the parts of a split gives the string back, and no part has a slash. -/
def joinSlash : List Str → Str
  | [] => []
  | [p] => p
  | p :: ps => p ++ slash :: joinSlash ps

theorem splitSlash_join (s : Str) :
    joinSlash (splitSlash s) = s ∧ ∀ p ∈ splitSlash s, slash ∉ p := by
  induction s with
  | nil => simp [splitSlash, joinSlash]
  | cons c s ih =>
    rw [splitSlash]
    cases hs : splitSlash s with
    | nil => exact absurd hs (splitSlash_ne_nil s)
    | cons p ps =>
      rw [hs] at ih
      by_cases hc : c = slash
      · subst hc
        simp only [if_true]
        refine ⟨?_, ?_⟩
        · rw [joinSlash]
          · rw [ih.1]; rfl
          · simp
        · intro q hq
          rcases List.mem_cons.mp hq with h | h
          · subst h; simp
          · exact ih.2 q h
      · simp only [hc, if_false]
        refine ⟨?_, ?_⟩
        · cases ps with
          | nil => simp only [joinSlash] at ih ⊢; rw [ih.1]
          | cons q qs =>
            simp only [joinSlash, List.cons_append] at ih ⊢
            rw [ih.1]
        · intro q hq
          rcases List.mem_cons.mp hq with h | h
          · subst h
            have := ih.2 p (by simp)
            simp only [List.mem_cons, not_or]
            exact ⟨fun e => hc e.symm, this⟩
          · exact ih.2 q (by simp [h])

end Claw
