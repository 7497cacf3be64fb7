import Verif.Lemmas.TokenRead
import Verif.Lemmas.Maps

/-!
# Setting entries of a map
-/

namespace Claw.Tok

open Claw.Idl (FT Out)

theorem keyCmp_num_laws (k : FT) : CmpLaws fun a b : UInt64 => keyCmp k (.num a) (.num b) := by
  cases k <;> simp only [keyCmp] <;>
    first
      | exact goCompare_laws (fun _ => false) fun a : UInt64 => a.toInt64.toInt
      | exact goCompare_laws (fun a : UInt64 => F32.isNaN ⟨a.toUInt32⟩) fun a => F32.value ⟨a.toUInt32⟩
      | exact goCompare_laws (fun a : UInt64 => F64.isNaN ⟨a⟩) fun a => F64.value ⟨a⟩
      | exact goCompare_laws (fun _ => false) fun a : UInt64 => (a.toNat : Int)

theorem keyCmp_laws (k : FT) : CmpLaws (keyCmp k) where
  refl a := by
    cases a with
    | num a => exact (keyCmp_num_laws k).refl a
    | str a => exact goCompareStr_laws.refl a
  symm a b := by
    cases a <;> cases b
    · exact (keyCmp_num_laws k).symm _ _
    · simp [keyCmp]
    · simp [keyCmp]
    · exact goCompareStr_laws.symm _ _
  swap a b := by
    cases a <;> cases b
    · exact (keyCmp_num_laws k).swap _ _
    · simp [keyCmp]
    · simp [keyCmp]
    · exact goCompareStr_laws.swap _ _
  trans a b c := by
    cases a <;> cases b <;> cases c <;>
      first
        | exact (keyCmp_num_laws k).trans _ _ _
        | exact goCompareStr_laws.trans _ _ _
        | simp [keyCmp]
  lt_eq a b c := by
    cases a <;> cases b <;> cases c <;>
      first
        | exact (keyCmp_num_laws k).lt_eq _ _ _
        | exact goCompareStr_laws.lt_eq _ _ _
        | simp [keyCmp]
  eq_lt a b c := by
    cases a <;> cases b <;> cases c <;>
      first
        | exact (keyCmp_num_laws k).eq_lt _ _ _
        | exact goCompareStr_laws.eq_lt _ _ _
        | simp [keyCmp]
  eq_eq a b c := by
    cases a <;> cases b <;> cases c <;>
      first
        | exact (keyCmp_num_laws k).eq_eq _ _ _
        | exact goCompareStr_laws.eq_eq _ _ _
        | simp [keyCmp]

theorem mapSet_length {k : FT} {key : Key} {v : Val} : ∀ {ks : List Key} {vs : List Val},
    ks.length = vs.length → (mapSet k key v ks vs).1.length = (mapSet k key v ks vs).2.length := by
  intro ks
  induction ks with
  | nil => intro vs hl; cases vs <;> simp_all [mapSet]
  | cons a ks ih =>
    intro vs hl
    cases vs with
    | nil => simp at hl
    | cons x vs =>
      have := ih (vs := vs) (by simpa using hl)
      simp only [mapSet]
      repeat' split
      all_goals simp_all

/-- The keys after an entry was set: the old ones, and the key. -/
theorem mapSet_mem {k : FT} {key : Key} {v : Val} : ∀ {ks : List Key} {vs : List Val},
    ∀ a ∈ (mapSet k key v ks vs).1, a ∈ ks ∨ a = key := by
  intro ks
  induction ks with
  | nil => intro vs a; cases vs <;> simp [mapSet]
  | cons b ks ih =>
    intro vs a
    cases vs with
    | nil => simp only [mapSet, List.mem_singleton]; exact .inr
    | cons x vs =>
      simp only [mapSet]
      split
      · simp only [List.mem_cons]
        rintro (h | h)
        · exact .inl (.inl h)
        · rcases ih a h with h | h
          · exact .inl (.inr h)
          · exact .inr h
      · split
        · exact .inl
        · simp only [List.mem_cons]
          rintro (h | h)
          · exact .inr h
          · exact .inl h

theorem mapSet_rising {k : FT} {key : Key} {v : Val} : ∀ {ks : List Key} {vs : List Val},
    ks.length = vs.length → Rising k ks → Rising k (mapSet k key v ks vs).1 := by
  have L := keyCmp_laws k
  intro ks
  induction ks with
  | nil => intro vs hl _; cases vs <;> simp_all [mapSet, Rising]
  | cons a ks ih =>
    intro vs hl hr
    cases vs with
    | nil => simp at hl
    | cons x vs =>
      have hr' := List.pairwise_cons.1 hr
      simp only [mapSet]
      split
      · rename_i hlt
        refine List.pairwise_cons.2 ⟨?_, ih (by simpa using hl) hr'.2⟩
        intro b hb
        rcases mapSet_mem b hb with h | rfl
        · exact hr'.1 b h
        · exact hlt
      · split
        · exact hr
        · rename_i h1 h2
          have hk : keyCmp k key a < 0 := (L.swap key a).2 (by omega)
          refine List.pairwise_cons.2 ⟨?_, hr⟩
          intro b hb
          rcases List.mem_cons.1 hb with rfl | hb
          · exact hk
          · exact L.trans _ _ _ hk (hr'.1 b hb)

/-- An entry that was set is found; the others are as before. -/
theorem mapSet_entry {k : FT} {key : Key} {v : Val} (key' : Key) : ∀ {ks : List Key} {vs : List Val},
    ks.length = vs.length → Rising k ks →
    entry k key' (mapSet k key v ks vs).1 (mapSet k key v ks vs).2 =
      if keyCmp k key key' = 0 then some v else entry k key' ks vs := by
  have L := keyCmp_laws k
  intro ks
  induction ks with
  | nil => intro vs hl _; cases vs <;> simp_all [mapSet, entry]
  | cons a ks ih =>
    intro vs hl hr
    cases vs with
    | nil => simp at hl
    | cons x vs =>
      have hr' := List.pairwise_cons.1 hr
      simp only [mapSet]
      split
      · rename_i hlt
        simp only [entry]
        rw [ih (by simpa using hl) hr'.2]
        by_cases h1 : keyCmp k a key' = 0
        · rw [if_pos h1, if_pos h1, if_neg]
          intro h2
          have := L.lt_eq _ _ _ hlt h2
          omega
        · rw [if_neg h1, if_neg h1]
      · split
        · rename_i _ he
          simp only [entry]
          by_cases h1 : keyCmp k a key' = 0
          · rw [if_pos h1, if_pos (L.eq_eq _ _ _ (L.symm _ _ he) h1)]
          · rw [if_neg h1, if_neg h1, if_neg]
            exact fun h2 => h1 (L.eq_eq _ _ _ he h2)
        · simp only [entry]

theorem entry_none {k : FT} {key : Key} : ∀ {ks : List Key} {vs : List Val},
    (∀ a ∈ ks, keyCmp k a key ≠ 0) → entry k key ks vs = none := by
  intro ks
  induction ks with
  | nil => intro vs _; cases vs <;> rfl
  | cons a ks ih =>
    intro vs h
    cases vs with
    | nil => rfl
    | cons x vs =>
      simp only [entry]
      rw [if_neg (h a (by simp)), ih fun b hb => h b (by simp [hb])]

theorem mergeMap_entries {k : FT} : ∀ {ks' : List Key} {vs' : List Val} {ks : List Key} {vs : List Val},
    ks.length = vs.length → ks'.length = vs'.length → Rising k ks → Rising k ks' →
    ∃ rks rvs, mergeMap k ks' vs' (.map ks vs) = .map rks rvs ∧ rks.length = rvs.length ∧ Rising k rks ∧
      ∀ key, entry k key rks rvs = (entry k key ks' vs').or (entry k key ks vs) := by
  have L := keyCmp_laws k
  intro ks'
  induction ks' with
  | nil =>
    intro vs' ks vs hl hl' hr _
    cases vs' with
    | nil => exact ⟨ks, vs, rfl, hl, hr, fun key => by simp [entry]⟩
    | cons x vs' => simp at hl'
  | cons a ks' ih =>
    intro vs' ks vs hl hl' hr hr'
    cases vs' with
    | nil => simp at hl'
    | cons x vs' =>
      have hp := List.pairwise_cons.1 hr'
      obtain ⟨rks, rvs, h1, h2, h3, h4⟩ := ih (vs' := vs') (mapSet_length (k := k) (key := a) (v := x) hl)
        (by simpa using hl') (mapSet_rising hl hr) hp.2
      refine ⟨rks, rvs, by simp only [mergeMap, mapPut]; exact h1, h2, h3, ?_⟩
      intro key
      rw [h4, mapSet_entry key hl hr]
      simp only [entry]
      by_cases he : keyCmp k a key = 0
      · rw [if_pos he, if_pos he, entry_none]
        · rfl
        · intro b hb h0
          have h5 := L.lt_eq _ _ _ (hp.1 b hb) h0
          have h6 := (L.swap _ _).1 h5
          have := L.symm _ _ he
          omega
      · rw [if_neg he, if_neg he]

end Claw.Tok
