import Verif.Spec.Prepare

/-!
# C151: descriptions of structs are prepared once, and checked

`Init` is right for all programs. `MustValidate` does not end for structs that hold themselves, refuses the documented
way of marking them, and accepts maps with values of any type.
-/

namespace Claw.Prepare

open Claw.Graph

/-! ### Init -/

/-- How many of `U` are not in `S`. -/
def missing (U S : List Nat) : Nat := U.countP fun x => decide (x ∉ S)

theorem missing_mono (U S S' : List Nat) (h : ∀ x ∈ S, x ∈ S') : missing U S' ≤ missing U S := by
  refine List.countP_mono_left ?_
  intro x _ hx
  simp only [decide_eq_true_eq] at hx ⊢
  exact fun hs => hx (h x hs)

theorem missing_cons (U S : List Nat) (v : Nat) (hu : v ∈ U) (hs : v ∉ S) : missing U (v :: S) < missing U S := by
  induction U with
  | nil => simp at hu
  | cons u U ih =>
    have hm := missing_mono U S (v :: S) (fun x hx => List.mem_cons_of_mem _ hx)
    unfold missing at *
    simp only [List.countP_cons]
    by_cases huv : u = v
    · subst huv
      simp [hs]; simp at hm; omega
    · have hu' : v ∈ U := by
        rcases List.mem_cons.mp hu with h | h
        · exact absurd h.symm huv
        · exact h
      have := ih hu'
      by_cases hus : u ∈ S
      · simp [hus]; simp at this; exact this
      · simp [hus, huv]; simp at this; exact this

/-- What a call that ends has done. -/
structure Ran (g : Nat → List Field) (vs S S' : List Nat) : Prop where
  new : ∃ n, S' = n ++ S ∧ n.Nodup ∧ ∀ x ∈ n, x ∉ S ∧ ∃ v ∈ vs, Reach (edges g) v x
  has : ∀ v ∈ vs, v ∈ S'
  closed : ∀ x ∈ S', x ∉ S → ∀ w ∈ edges g x, w ∈ S'

theorem mem_targets {g : Nat → List Field} {v w : Nat} : w ∈ targets v (g v) ↔ w ∈ edges g v ∧ w ≠ v := by
  simp only [targets, edges, List.mem_flatMap, List.mem_filter, decide_eq_true_eq]
  exact ⟨fun ⟨f, h1, h2, h3⟩ => ⟨⟨f, h1, h2⟩, h3⟩, fun ⟨⟨f, h1, h2⟩, h3⟩ => ⟨f, h1, h2, h3⟩⟩

theorem calls_ran (g : Nat → List Field) (U : List Nat) (run : Nat → List Nat → Option (List Nat)) (d : Nat)
    (hrun : ∀ v S, v ∈ U → missing U S < d → ∃ S', run v S = some S' ∧ Ran g [v] S S') :
    ∀ ws S, (∀ w ∈ ws, w ∈ U) → missing U S < d → ∃ S', calls run ws S = some S' ∧ Ran g ws S S' := by
  intro ws
  induction ws with
  | nil => intro S _ _; exact ⟨S, rfl, ⟨[], rfl, .nil, by simp⟩, by simp, fun x h h' => absurd h h'⟩
  | cons w ws ih =>
    intro S hU hm
    obtain ⟨S1, e1, r1⟩ := hrun w S (hU w (List.mem_cons_self ..)) hm
    obtain ⟨n1, q1, nd1, m1⟩ := r1.new
    have sub1 : ∀ x ∈ S, x ∈ S1 := by intro x hx; rw [q1]; exact List.mem_append_right _ hx
    obtain ⟨S2, e2, r2⟩ := ih S1 (fun x hx => hU x (List.mem_cons_of_mem _ hx))
      (Nat.lt_of_le_of_lt (missing_mono U S S1 sub1) hm)
    obtain ⟨n2, q2, nd2, m2⟩ := r2.new
    have sub2 : ∀ x ∈ S1, x ∈ S2 := by intro x hx; rw [q2]; exact List.mem_append_right _ hx
    refine ⟨S2, by simp only [calls, e1, e2], ⟨n2 ++ n1, by rw [q2, q1, List.append_assoc], ?_, ?_⟩, ?_, ?_⟩
    · refine List.nodup_append.mpr ⟨nd2, nd1, ?_⟩
      intro a ha b hb hab
      subst hab
      exact (m2 a ha).1 (by rw [q1]; exact List.mem_append_left _ hb)
    · intro x hx
      rcases List.mem_append.mp hx with hx | hx
      · obtain ⟨k1, v, k2, k3⟩ := m2 x hx
        exact ⟨fun h => k1 (sub1 x h), v, List.mem_cons_of_mem _ k2, k3⟩
      · obtain ⟨k1, v, k2, k3⟩ := m1 x hx
        simp only [List.mem_singleton] at k2
        subst k2
        exact ⟨k1, v, List.mem_cons_self .., k3⟩
    · intro x hx
      rcases List.mem_cons.mp hx with rfl | hx
      · exact sub2 x (r1.has x (List.mem_singleton.mpr rfl))
      · exact r2.has x hx
    · intro x hx hn y hy
      by_cases h1 : x ∈ S1
      · exact sub2 y (r1.closed x h1 hn y hy)
      · exact r2.closed x hx h1 y hy

theorem init_ran (g : Nat → List Field) (U : List Nat) (hU : ∀ v ∈ U, ∀ w ∈ edges g v, w ∈ U) :
    ∀ d v S, v ∈ U → missing U S < d → ∃ S', init g d v S = some S' ∧ Ran g [v] S S' := by
  intro d
  induction d with
  | zero => intro v S _ h; omega
  | succ d ih =>
    intro v S hv hm
    by_cases hs : v ∈ S
    · exact ⟨S, by simp [init, hs], ⟨[], rfl, .nil, by simp⟩, by simpa using hs, fun x h h' => absurd h h'⟩
    · have hc := missing_cons U S v hv hs
      obtain ⟨S', e, r⟩ := calls_ran g U (init g d) d ih (targets v (g v)) (v :: S)
        (fun w hw => hU v hv w (mem_targets.mp hw).1) (by omega)
      obtain ⟨n, q, nd, m⟩ := r.new
      have hvS : v ∈ S' := by rw [q]; exact List.mem_append_right _ (List.mem_cons_self ..)
      refine ⟨S', by simp only [init, hs, if_false, e], ⟨n ++ [v], by rw [q]; simp, ?_, ?_⟩, ?_, ?_⟩
      · refine List.nodup_append.mpr ⟨nd, by simp, ?_⟩
        intro a ha b hb hab
        simp only [List.mem_singleton] at hb
        subst hab; subst hb
        exact (m a ha).1 (List.mem_cons_self ..)
      · intro x hx
        rcases List.mem_append.mp hx with hx | hx
        · obtain ⟨k1, w, k2, k3⟩ := m x hx
          exact ⟨fun h => k1 (List.mem_cons_of_mem _ h), v, List.mem_singleton.mpr rfl, .head (mem_targets.mp k2).1 k3⟩
        · simp only [List.mem_singleton] at hx
          subst hx
          exact ⟨hs, x, List.mem_singleton.mpr rfl, .refl⟩
      · intro x hx
        simp only [List.mem_singleton] at hx
        subst hx; exact hvS
      · intro x hx hn y hy
        by_cases hxv : x = v
        · subst hxv
          by_cases hyx : y = x
          · subst hyx; exact hvS
          · exact r.has y (mem_targets.mpr ⟨hy, hyx⟩)
        · exact r.closed x hx (by simp [hxv, hn]) y hy

/-- **C151, Init.** For all descriptions, however they point at each other, and whatever is prepared already (a set that
is closed, as every earlier call leaves it): the calls of `Init` end, in a depth of at most the number of descriptions
plus one; afterwards exactly the descriptions reachable from those it was called for are prepared as well, the set is
closed again, and no description is prepared twice. -/
theorem C151_init (g : Nat → List Field) (U vs S : List Nat) (hU : ∀ v ∈ U, ∀ w ∈ edges g v, w ∈ U)
    (hvs : ∀ v ∈ vs, v ∈ U) (hS : ∀ x ∈ S, ∀ w ∈ edges g x, w ∈ S) (hn : S.Nodup) (d : Nat) (hd : U.length < d) :
    ∃ S', initAll g d vs S = some S' ∧ S'.Nodup ∧ (∀ x, x ∈ S' ↔ x ∈ S ∨ ∃ v ∈ vs, Reach (edges g) v x) ∧
      ∀ x ∈ S', ∀ w ∈ edges g x, w ∈ S' := by
  have hm : missing U S < d := Nat.lt_of_le_of_lt List.countP_le_length hd
  obtain ⟨S', e, r⟩ := calls_ran g U (init g d) d (init_ran g U hU d) vs S hvs hm
  obtain ⟨n, q, nd, m⟩ := r.new
  have hcl : ∀ x ∈ S', ∀ w ∈ edges g x, w ∈ S' := by
    intro x hx w hw
    by_cases hxs : x ∈ S
    · rw [q]; exact List.mem_append_right _ (hS x hxs w hw)
    · exact r.closed x hx hxs w hw
  refine ⟨S', e, ?_, ?_, hcl⟩
  · rw [q]
    refine List.nodup_append.mpr ⟨nd, hn, ?_⟩
    intro a ha b hb hab
    subst hab
    exact (m a ha).1 hb
  · intro x
    constructor
    · intro hx
      rw [q] at hx
      rcases List.mem_append.mp hx with hx | hx
      · exact .inr (m x hx).2
      · exact .inl hx
    · rintro (hx | ⟨v, hv, hr⟩)
      · rw [q]; exact List.mem_append_right _ hx
      · induction hr with
        | refl => exact r.has v hv
        | step _ hw ih => exact hcl _ ih _ hw

/-- A second `Init` does nothing. -/
theorem C151_init_again (g : Nat → List Field) (d v : Nat) (S : List Nat) (h : v ∈ S) :
    init g (d + 1) v S = some S := by simp [init, h]

/-! ### MustValidate -/

/-- What `Validate` looks at in one field. -/
def good (f : Field) : Bool := checkField (fun _ => some true) f == some true

/-- The description that `Validate` of a field goes on to. -/
def next (f : Field) : Option Nat :=
  if f.ty = 54 ∨ f.ty = 14 then f.mapping else if f.ty = 55 then f.valMapping else none

theorem checkField_eq (run : Nat → Option Bool) (f : Field) (h : good f = true) :
    checkField run f = match next f with
      | some m => run m
      | none => some true := by
  revert h
  unfold good checkField next
  by_cases h1 : f.ty = 54 ∨ f.ty = 14
  · simp only [h1, if_true]
    cases f.mapping <;> simp
  · simp only [h1, if_false]
    by_cases h2 : f.ty = 55
    · simp only [h2, if_true]
      cases f.isMap <;> cases validKey f.keyTy <;> cases f.valMapping <;> simp
    · simp [h2]

theorem checkField_true (run : Nat → Option Bool) (f : Field) :
    checkField run f = some true ↔ good f = true ∧ ∀ m, next f = some m → run m = some true := by
  constructor
  · intro h
    have hg : good f = true := by
      revert h
      unfold good checkField
      by_cases h1 : f.ty = 54 ∨ f.ty = 14
      · simp only [h1, if_true]
        cases f.mapping <;> simp
      · simp only [h1, if_false]
        by_cases h2 : f.ty = 55
        · simp only [h2, if_true]
          cases f.isMap <;> cases validKey f.keyTy <;> cases f.valMapping <;> simp
        · simp [h2]
    refine ⟨hg, ?_⟩
    intro m hm
    rw [checkField_eq run f hg, hm] at h
    exact h
  · rintro ⟨hg, h⟩
    rw [checkField_eq run f hg]
    cases hm : next f with
    | none => rfl
    | some m => exact h m hm

theorem checkFields_true (run : Nat → Option Bool) (fs : List Field) :
    checkFields run fs = some true ↔ ∀ f ∈ fs, checkField run f = some true := by
  induction fs with
  | nil => simp [checkFields]
  | cons f fs ih =>
    simp only [checkFields, List.mem_cons, forall_eq_or_imp]
    rw [← ih]
    rcases hf : checkField run f with _ | b
    · simp
    · cases b <;> simp

theorem checkFields_ends (run : Nat → Option Bool) (fs : List Field)
    (h : ∀ f ∈ fs, ∃ b, checkField run f = some b) : ∃ b, checkFields run fs = some b := by
  induction fs with
  | nil => exact ⟨true, rfl⟩
  | cons f fs ih =>
    obtain ⟨b, hb⟩ := h f (List.mem_cons_self ..)
    cases b with
    | true => simpa only [checkFields, hb] using ih (fun x hx => h x (List.mem_cons_of_mem _ hx))
    | false => exact ⟨false, by simp only [checkFields, hb]⟩

theorem checkField_ends (run : Nat → Option Bool) (f : Field) (h : ∀ m, next f = some m → ∃ b, run m = some b) :
    ∃ b, checkField run f = some b := by
  revert h
  unfold checkField next
  by_cases h1 : f.ty = 54 ∨ f.ty = 14
  · simp only [h1, if_true]
    cases f.mapping <;> simp
  · simp only [h1, if_false]
    by_cases h2 : f.ty = 55
    · simp only [h2, if_true]
      cases f.isMap <;> cases validKey f.keyTy <;> cases f.valMapping <;> simp <;> omega
    · simp [h2]

theorem next_plain {f : Field} (h : Plain f) (m : Nat) :
    next f = some m ↔ m ∈ f.mapping.toList ++ f.valMapping.toList := by
  obtain ⟨ty, self, mp, im, kt, vt, vm⟩ := f
  obtain ⟨h1, h2⟩ := h
  unfold next
  simp only at h1 h2 ⊢
  by_cases k1 : ty = 54 ∨ ty = 14
  · have : vm = none := by
      cases vm with
      | none => rfl
      | some x => have := h2 rfl; omega
    subst this
    simp only [k1, if_true]
    cases mp <;> simp [eq_comm]
  · have : mp = none := by
      cases mp with
      | none => rfl
      | some x => have := h1 rfl; omega
    subst this
    simp only [k1, if_false]
    by_cases k2 : ty = 55
    · simp only [k2, if_true]
      cases vm <;> simp [eq_comm]
    · have : vm = none := by
        cases vm with
        | none => rfl
        | some x => exact absurd (h2 rfl) k2
      subst this
      simp [k2]

theorem next_edges {g : Nat → List Field} (hp : ∀ v, ∀ f ∈ g v, Plain f) (v m : Nat) :
    m ∈ edges g v ↔ ∃ f ∈ g v, next f = some m := by
  simp only [edges, List.mem_flatMap]
  exact ⟨fun ⟨f, h1, h2⟩ => ⟨f, h1, (next_plain (hp v f h1) m).mpr h2⟩,
    fun ⟨f, h1, h2⟩ => ⟨f, h1, (next_plain (hp v f h1) m).mp h2⟩⟩

theorem validKey_iff (t : Nat) : validKey t = true ↔ t ≠ 0 ∧ t ≤ 12 := by
  simp only [validKey, decide_eq_true_eq, List.mem_cons, List.not_mem_nil, or_false]; omega

theorem good_iff (f : Field) (hs : f.self = false) (hv : f.ty = 55 → validValue f.valTy = true) :
    good f = true ↔ Fine f := by
  obtain ⟨ty, self, mp, im, kt, vt, vm⟩ := f
  simp only at hs hv
  subst hs
  unfold good checkField Fine
  simp only
  by_cases k1 : ty = 54 ∨ ty = 14
  · have k3 : ty ≠ 55 := by omega
    have k1' : ty = 14 ∨ ty = 54 := by omega
    simp only [k1, k1', if_true, k3]
    cases mp <;> simp
  · have k1' : ¬ (ty = 14 ∨ ty = 54) := by omega
    simp only [k1, k1', if_false]
    by_cases k2 : ty = 55
    · subst k2
      have hk := validKey_iff kt
      have hv' := hv rfl
      simp only [if_true, hv']
      cases im with
      | false => simp
      | true =>
        cases hkk : validKey kt with
        | false =>
          rw [hkk] at hk
          have : ¬ (kt ≠ 0 ∧ kt ≤ 12) := fun h => by simpa using hk.mpr h
          simp [this]
        | true =>
          have := hk.mp hkk
          cases vm <;> simp [this]
    · simp [k2]

/-- **C151, MustValidate, partial.** If no description leads back to itself (`rank` falls along the pointers), no field is
marked as self-referential and all values of maps have types that maps may have, the check ends, and accepts exactly if
everything reachable is described well. Missing: the three cases below, in which the claim is false. -/
theorem C151_validate_partial (g : Nat → List Field) (rank : Nat → Nat) (hr : ∀ v, ∀ w ∈ edges g v, rank w < rank v)
    (hp : ∀ v, ∀ f ∈ g v, Plain f) (hs : ∀ v, ∀ f ∈ g v, f.self = false)
    (hv : ∀ v, ∀ f ∈ g v, f.ty = 55 → validValue f.valTy = true) :
    ∀ d v, rank v < d → ∃ b, check g d v = some b ∧
      (b = true ↔ ∀ x, Reach (edges g) v x → ∀ f ∈ g x, Fine f) := by
  intro d
  induction d with
  | zero => intro v h; omega
  | succ d ih =>
    intro v hd
    have hnext : ∀ f ∈ g v, ∀ m, next f = some m → m ∈ edges g v :=
      fun f hf m hm => (next_edges hp v m).mpr ⟨f, hf, hm⟩
    have hrank : ∀ m ∈ edges g v, rank m < d := fun m hm => by have := hr v m hm; omega
    obtain ⟨b, hb⟩ := checkFields_ends (check g d) (g v) (fun f hf => checkField_ends _ f (fun m hm => by
      obtain ⟨b, h, _⟩ := ih m (hrank m (hnext f hf m hm)); exact ⟨b, h⟩))
    refine ⟨b, hb, ?_⟩
    have h1 : b = true ↔ checkFields (check g d) (g v) = some true := by rw [hb]; simp
    rw [h1, checkFields_true]
    constructor
    · intro h x hx f hf
      rcases hx.cases_head with rfl | ⟨w, hw, hwx⟩
      · exact (good_iff f (hs _ f hf) (hv _ f hf)).mp ((checkField_true _ f).mp (h f hf)).1
      · obtain ⟨f', hf', hn⟩ := (next_edges hp v w).mp hw
        have := ((checkField_true _ f').mp (h f' hf')).2 w hn
        obtain ⟨b', k1, k2⟩ := ih w (hrank w hw)
        rw [this] at k1
        exact k2.mp (by simpa using k1.symm) x hwx f hf
    · intro h f hf
      refine (checkField_true _ f).mpr ⟨(good_iff f (hs _ f hf) (hv _ f hf)).mpr (h v .refl f hf), ?_⟩
      intro m hm
      have he := hnext f hf m hm
      obtain ⟨b', k1, k2⟩ := ih m (hrank m he)
      rw [k1, k2.mpr (fun x hx => h x (.head he hx))]

/-- **C151, refuted (1): structs that hold each other.** If a description leads back to itself and everything reachable
is described well, the check does not end, whatever the depth (the stack overflows, which ends the program). -/
theorem C151_validate_endless (g : Nat → List Field) (v : Nat) (hp : ∀ v, ∀ f ∈ g v, Plain f)
    (hg : ∀ x, Reach (edges g) v x → ∀ f ∈ g x, Fine f ∧ f.self = false) (hc : Cyclic (edges g) v) :
    ∀ d, check g d v = none := by
  have hgood : ∀ x, Reach (edges g) v x → ∀ f ∈ g x, good f = true := by
    intro x hx f hf
    obtain ⟨h1, h2⟩ := hg x hx f hf
    exact (good_iff f h2 (fun h => (h1.2 h).2.2.1)).mpr h1
  have hnf : ∀ d x, Reach (edges g) v x → check g d x ≠ some false := by
    intro d
    induction d with
    | zero => intro x _; simp [check]
    | succ d ih =>
      intro x hx
      have : ∀ fs, (∀ f ∈ fs, f ∈ g x) → checkFields (check g d) fs ≠ some false := by
        intro fs
        induction fs with
        | nil => intro _; simp [checkFields]
        | cons f fs ihf =>
          intro hfs
          have hf := hfs f (List.mem_cons_self ..)
          have hne : checkField (check g d) f ≠ some false := by
            rw [checkField_eq _ f (hgood x hx f hf)]
            cases hm : next f with
            | none => simp
            | some m => exact ih m (.step hx ((next_edges hp x m).mpr ⟨f, hf, hm⟩))
          simp only [checkFields]
          rcases hcf : checkField (check g d) f with _ | b
          · simp
          · cases b with
            | true => exact ihf (fun y hy => hfs y (List.mem_cons_of_mem _ hy))
            | false => exact absurd hcf hne
      exact this (g x) (fun _ h => h)
  have hnt : ∀ d x, Reach (edges g) v x → Reach (edges g) x v → check g d x ≠ some true := by
    intro d
    induction d with
    | zero => intro x _ _; simp [check]
    | succ d ih =>
      intro x hx hxv ht
      have hsucc : ∃ y ∈ edges g x, Reach (edges g) y v := by
        rcases hxv.cases_head with rfl | h
        · exact hc
        · exact h
      obtain ⟨y, hy, hyv⟩ := hsucc
      obtain ⟨f, hf, hn⟩ := (next_edges hp x y).mp hy
      have := ((checkField_true _ f).mp ((checkFields_true _ _).mp ht f hf)).2 y hn
      exact ih y (.step hx hy) hyv this
  intro d
  have h1 := hnf d v .refl
  have h2 := hnt d v .refl .refl
  rcases h : check g d v with _ | b
  · rfl
  · cases b
    · exact absurd h h1
    · exact absurd h h2

/-- **C151, refuted (2): a struct that holds itself is never accepted**, neither described as documented (marked, and
`Mapping` not set) nor with `Mapping` set to itself. -/
theorem C151_self_never_accepted (g : Nat → List Field) (v : Nat) (f : Field) (hf : f ∈ g v)
    (ht : f.ty = 14 ∨ f.ty = 54) (hm : f.mapping = none ∨ f.mapping = some v) : ∀ d, check g d v ≠ some true := by
  intro d
  induction d with
  | zero => simp [check]
  | succ d ih =>
    intro h
    have h1 := (checkField_true _ f).mp ((checkFields_true _ _).mp h f hf)
    have ht' : f.ty = 54 ∨ f.ty = 14 := ht.symm
    rcases hm with hm | hm
    · have := h1.1
      simp [good, checkField, ht', hm] at this
    · exact ih (h1.2 v (by simp [next, ht', hm]))

/-- **C151, refuted (3): maps with values of any type are accepted**, as lists of numbers, which maps may not have
(field.go:77-90). -/
theorem C151_any_value_accepted (t : Nat) (ht : t ≠ 14) (k : Nat) (hk : k ≠ 0 ∧ k ≤ 12) (d : Nat) :
    check (fun _ => [{ ty := 55, isMap := true, keyTy := k, valTy := t }]) (d + 1) 0 = some true := by
  have := (validKey_iff k).mpr hk
  simp [check, checkFields, checkField, this, ht]

/-! ### The hypotheses are met -/

/-- 0 holds a list of 1 and a map of 2; 1 holds 0 and itself; 2 has a number. -/
def demo : Nat → List Field
  | 0 => [{ ty := 54, mapping := some 1 }, { ty := 55, isMap := true, keyTy := 12, valTy := 14, valMapping := some 2 }]
  | 1 => [{ ty := 14, mapping := some 0 }, { ty := 54, mapping := some 1 }]
  | 2 => [{ ty := 4 }]
  | _ => []

theorem demo_edges : edges demo 0 = [1, 2] ∧ edges demo 1 = [0, 1] ∧ edges demo 2 = [] := by decide

example : initAll demo 4 [2, 1, 0] [] = some [0, 1, 2] := by decide

example := C151_init demo [0, 1, 2] [1] [2] (by decide) (by decide) (by decide) (by decide) 4 (by decide)

theorem demo_fields (v : Nat) : ∀ f ∈ demo v, Plain f ∧ Fine f ∧ f.self = false := by
  unfold demo
  split <;> simp [Plain, Fine, validValue]

example : ∀ d, check demo d 0 = none :=
  C151_validate_endless demo 0 (fun v f hf => (demo_fields v f hf).1) (fun x _ f hf => (demo_fields x f hf).2)
    ⟨1, by decide, .step .refl (by decide)⟩

/-- 0 holds 1, which has a map. -/
def demoTree : Nat → List Field
  | 0 => [{ ty := 54, mapping := some 1 }]
  | 1 => [{ ty := 55, isMap := true, keyTy := 12, valTy := 4 }]
  | _ => []

example : ∃ b, check demoTree 5 0 = some b ∧ (b = true ↔ ∀ x, Reach (edges demoTree) 0 x → ∀ f ∈ demoTree x, Fine f) := by
  refine C151_validate_partial demoTree (fun v => if v = 0 then 1 else 0) ?_ ?_ ?_ ?_ 5 0 (by decide)
  · intro v w hw
    unfold edges demoTree at hw
    split at hw <;> simp_all
  all_goals (intro v; unfold demoTree; split <;> simp [Plain, validValue])

example : check demoTree 5 0 = some true := by decide

example := C151_self_never_accepted (fun _ => [{ ty := 54, self := true }]) 0 { ty := 54, self := true } (by simp) (by decide)
  (.inl rfl)

example := C151_any_value_accepted 42 (by decide) 12 (by decide) 3

example : validValue 42 = false := rfl

end Claw.Prepare
