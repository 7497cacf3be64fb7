import Verif.Model.Registry

/-!
# C34 Handler registration never overwrites; C52 the health service

The specification knows nothing about keys: it is the list of the calls made, and "first
registration of this package, service and call".
-/

namespace Claw.Registry

open Claw

/-- One call of `Register`. -/
structure Reg (H : Type) where
  pkg : Str
  service : Str
  call : Str
  h : H

/-- All calls in order; the results are whether each succeeded. -/
def runAll {H : Type} : State H → List (Reg H) → State H × List Bool
  | s, [] => (s, [])
  | s, r :: rs =>
    let (s1, ok) := register s r.pkg r.service r.call r.h
    let (s2, oks) := runAll s1 rs
    (s2, ok :: oks)

/-- Package and service names without `/` (a call name may have them). -/
def Plain (pkg service : Str) : Prop := Str.slash ∉ pkg ∧ Str.slash ∉ service

/-- The handler of the first call for this triple. -/
def firstFor {H : Type} (rs : List (Reg H)) (pkg service call : Str) : Option H :=
  match rs with
  | [] => none
  | r :: rs => if r.pkg = pkg ∧ r.service = service ∧ r.call = call then some r.h
    else firstFor rs pkg service call

theorem makeKey_eq (a b c : Str) : makeKey a b c = path3 a b c := rfl

theorem find_append {H : Type} (l : List (Str × H)) (k k' : Str) (h : H) :
    State.find ⟨l ++ [(k, h)]⟩ k' =
      match State.find ⟨l⟩ k' with
      | some x => some x
      | none => if k = k' then some h else none := by
  simp only [State.find, List.find?_append]
  cases hf : List.find? (fun e => decide (e.1 = k')) l with
  | some x => simp
  | none => by_cases hk : k = k' <;> simp [List.find?, hk]

theorem register_find {H : Type} (s : State H) (p v c : Str) (h : H) (k : Str) :
    (register s p v c h).1.find k =
      match s.find k with
      | some x => some x
      | none => if makeKey p v c = k then some h else none := by
  unfold register
  simp only
  cases hf : s.find (makeKey p v c) with
  | none => exact find_append _ _ _ _
  | some y =>
    cases hk : s.find k with
    | some x => rfl
    | none =>
      by_cases he : makeKey p v c = k
      · subst he; rw [hf] at hk; cases hk
      · simp [he]

theorem runAll_append {H : Type} (s : State H) (xs ys : List (Reg H)) :
    runAll s (xs ++ ys) =
      ((runAll (runAll s xs).1 ys).1, (runAll s xs).2 ++ (runAll (runAll s xs).1 ys).2) := by
  induction xs generalizing s with
  | nil => simp [runAll]
  | cons x xs ih => simp [runAll, ih]

theorem runAll_lookup {H : Type} (rs : List (Reg H)) (s : State H) (pkg service call : Str)
    (hs : ∀ r ∈ rs, Plain r.pkg r.service) (hp : Plain pkg service) :
    lookup (runAll s rs).1 pkg service call =
      match lookup s pkg service call with
      | some x => some x
      | none => firstFor rs pkg service call := by
  induction rs generalizing s with
  | nil =>
    simp only [runAll, firstFor]
    split <;> simp_all
  | cons r rs ih =>
    simp only [runAll]
    rw [ih _ (fun r' h' => hs r' (by simp [h']))]
    unfold lookup
    rw [register_find]
    cases hf : s.find (makeKey pkg service call) with
    | some x => rfl
    | none =>
      simp only [firstFor]
      have hr := hs r (by simp)
      by_cases he : makeKey r.pkg r.service r.call = makeKey pkg service call
      · obtain ⟨h1, h2, h3⟩ := path3_inj he hr.1 hr.2 hp.1 hp.2
        simp [h1, h2, h3]
      · have : ¬ (r.pkg = pkg ∧ r.service = service ∧ r.call = call) := by
          rintro ⟨h1, h2, h3⟩
          exact he (by rw [h1, h2, h3])
        simp [he, this]

/-- C34 (for package and service names without `/`): after any sequence of registrations,
`Lookup` gives exactly the handler of the first registration of that very package, service and
call; the next `Register` fails exactly when such a registration was made before, and whatever
it returns, no handler registered before is replaced.  The full claim drops the hypothesis
about `/`; `C34_slash_collision` shows that it is false then. -/
theorem C34_first_registration_wins_partial {H : Type} (rs : List (Reg H)) (r : Reg H)
    (hs : ∀ x ∈ rs, Plain x.pkg x.service) (hr : Plain r.pkg r.service) :
    (∀ pkg service call, Plain pkg service →
      lookup (runAll new rs).1 pkg service call = firstFor rs pkg service call) ∧
    ((register (runAll new rs).1 r.pkg r.service r.call r.h).2 = false ↔
      ∃ x ∈ rs, x.pkg = r.pkg ∧ x.service = r.service ∧ x.call = r.call) ∧
    (∀ pkg service call, Plain pkg service → firstFor rs pkg service call ≠ none →
      lookup (register (runAll new rs).1 r.pkg r.service r.call r.h).1 pkg service call =
        firstFor rs pkg service call) := by
  have hl : ∀ pkg service call, Plain pkg service →
      lookup (runAll new rs).1 pkg service call = firstFor rs pkg service call := by
    intro pkg service call hp
    rw [runAll_lookup rs new pkg service call hs hp]
    rfl
  refine ⟨hl, ?_, ?_⟩
  · have hff : firstFor rs r.pkg r.service r.call = none ↔
        ¬ ∃ x ∈ rs, x.pkg = r.pkg ∧ x.service = r.service ∧ x.call = r.call := by
      clear hl hs hr
      induction rs with
      | nil => simp [firstFor]
      | cons y ys ih =>
        by_cases hy : y.pkg = r.pkg ∧ y.service = r.service ∧ y.call = r.call
        · simp [firstFor, hy]
        · simp only [firstFor, if_neg hy, ih, List.mem_cons]
          constructor
          · rintro h ⟨x, hx | hx, e⟩
            · subst hx; exact hy e
            · exact h ⟨x, hx, e⟩
          · rintro h ⟨x, hx, e⟩
            exact h ⟨x, Or.inr hx, e⟩
    have h2 := hl r.pkg r.service r.call hr
    unfold lookup at h2
    unfold register
    simp only
    rw [h2]
    cases hc : firstFor rs r.pkg r.service r.call with
    | none =>
      have := hff.mp hc
      simp only [Bool.true_eq_false, false_iff]
      exact this
    | some x =>
      have : ∃ x ∈ rs, x.pkg = r.pkg ∧ x.service = r.service ∧ x.call = r.call := by
        apply Classical.byContradiction
        intro hn
        rw [hff.mpr hn] at hc
        cases hc
      simp [this]
  · intro pkg service call hp hne
    unfold lookup
    rw [register_find]
    have h2 := hl pkg service call hp
    unfold lookup at h2
    rw [h2]
    cases hc : firstFor rs pkg service call with
    | none => exact absurd hc hne
    | some x => rfl

/-- C34, without any hypothesis about names: a `Register` that fails changes no lookup at all,
one that succeeds makes its own handler visible, and no lookup that succeeded before changes. -/
theorem C34_register_is_safe {H : Type} (s : State H) (p v c : Str) (h : H) :
    ((register s p v c h).2 = false → (register s p v c h).1 = s) ∧
    ((register s p v c h).2 = true → lookup s p v c = none ∧
      lookup (register s p v c h).1 p v c = some h) ∧
    (∀ p' v' c' x, lookup s p' v' c' = some x →
      lookup (register s p v c h).1 p' v' c' = some x) := by
  refine ⟨?_, ?_, ?_⟩
  · unfold register
    simp only
    cases s.find (makeKey p v c) with
    | none => intro h; cases h
    | some x => intro _; rfl
  · intro hr
    have hn : lookup s p v c = none := by
      unfold register at hr
      simp only at hr
      unfold lookup
      cases hf : s.find (makeKey p v c) with
      | none => rfl
      | some x => rw [hf] at hr; cases hr
    refine ⟨hn, ?_⟩
    unfold lookup at hn ⊢
    rw [register_find, hn]
    simp
  · intro p' v' c' x hx
    unfold lookup at hx ⊢
    rw [register_find, hx]

/-- C34 is false for names with `/`: two different methods share one key, so the second
registration fails although its name is free, and a lookup of the second method gives the
handler of the first. -/
theorem C34_slash_collision :
    ∃ (r₁ r₂ : Reg Nat), (r₁.pkg, r₁.service, r₁.call) ≠ (r₂.pkg, r₂.service, r₂.call) ∧
      (runAll new [r₁, r₂]).2 = [true, false] ∧
      lookup (runAll new [r₁]).1 r₂.pkg r₂.service r₂.call = some r₁.h :=
  ⟨⟨lit "a/b", lit "c", lit "d", 1⟩, ⟨lit "a", lit "b/c", lit "d", 2⟩,
    by decide +kernel, by decide +kernel, by decide +kernel⟩

/-! ## Listing -/

theorem splitN_cut (n : Nat) (a x : Str) (h : Str.slash ∉ a) :
    splitN (n + 1) (a ++ Str.slash :: x) = a :: splitN n x := by
  induction a with
  | nil => simp [splitN]
  | cons c a ih =>
    simp only [List.mem_cons, not_or] at h
    have hc : ¬ c = Str.slash := fun e => h.1 e.symm
    rw [List.cons_append, splitN, if_neg hc, ih h.2]

theorem splitN_key (a b c : Str) (h : Plain a b) : splitN 2 (makeKey a b c) = [a, b, c] := by
  rw [makeKey_eq, path3_eq, splitN_cut 1 a _ h.1, splitN_cut 0 b _ h.2]
  simp [splitN]

/-- The distinct triples of a history with the handler first registered for each. -/
def distinct {H : Type} : List (Reg H) → List (Reg H) → List (Reg H)
  | _, [] => []
  | seen, r :: rs =>
    if seen.any (fun x => x.pkg = r.pkg ∧ x.service = r.service ∧ x.call = r.call) then
      distinct seen rs
    else r :: distinct (seen ++ [r]) rs

theorem handlers_of {H : Type} (seen rs : List (Reg H)) (s : State H)
    (hseen : ∀ x ∈ seen, Plain x.pkg x.service) (hrs : ∀ x ∈ rs, Plain x.pkg x.service)
    (hs : s.handlers = seen.map fun x => (makeKey x.pkg x.service x.call, x.h)) :
    (runAll s rs).1.handlers =
      (seen ++ distinct seen rs).map fun x => (makeKey x.pkg x.service x.call, x.h) := by
  induction rs generalizing seen s with
  | nil => simp [runAll, distinct, hs]
  | cons r rs ih =>
    have hr := hrs r (by simp)
    have hany : (s.find (makeKey r.pkg r.service r.call)).isSome =
        seen.any (fun x => x.pkg = r.pkg ∧ x.service = r.service ∧ x.call = r.call) := by
      rw [State.find, hs]
      simp only [Option.isSome_map]
      rw [Bool.eq_iff_iff]
      simp only [List.find?_isSome, List.any_eq_true, List.mem_map, decide_eq_true_eq]
      constructor
      · rintro ⟨e, ⟨x, hx, rfl⟩, he⟩
        exact ⟨x, hx, path3_inj he (hseen x hx).1 (hseen x hx).2 hr.1 hr.2⟩
      · rintro ⟨x, hx, h1, h2, h3⟩
        exact ⟨_, ⟨x, hx, rfl⟩, by simp [h1, h2, h3]⟩
    simp only [runAll, distinct]
    unfold register
    simp only
    cases hf : s.find (makeKey r.pkg r.service r.call) with
    | some y =>
      rw [hf] at hany
      rw [← hany]
      simp only [Option.isSome_some, if_true]
      exact ih seen s hseen (fun x hx => hrs x (by simp [hx])) hs
    | none =>
      rw [hf] at hany
      rw [← hany]
      simp only [Option.isSome_none, Bool.false_eq_true, if_false]
      rw [ih (seen ++ [r]) _ _ (fun x hx => hrs x (by simp [hx])) _]
      · simp
      · intro x hx
        rcases List.mem_append.mp hx with h | h
        · exact hseen x h
        · rw [List.mem_singleton.mp h]; exact hr
      · simp [hs]

/-- C34, listing: `Handlers` gives exactly the distinct triples that were registered, each once,
with the handler registered first (names without `/`). -/
theorem C34_listing {H : Type} (rs : List (Reg H)) (hs : ∀ x ∈ rs, Plain x.pkg x.service) :
    handlers (runAll new rs).1 =
      (distinct [] rs).map fun x => ((x.pkg, x.service, x.call), x.h) := by
  unfold handlers
  rw [handlers_of [] rs new (by simp) hs rfl]
  simp only [List.nil_append, List.filterMap_map]
  have hd : ∀ seen rs : List (Reg H), (∀ x ∈ rs, Plain x.pkg x.service) →
      ∀ x ∈ distinct seen rs, Plain x.pkg x.service := by
    intro seen rs
    induction rs generalizing seen with
    | nil => simp [distinct]
    | cons r rs ih =>
      intro h x hx
      simp only [distinct] at hx
      split at hx
      · exact ih seen (fun y hy => h y (by simp [hy])) x hx
      · rcases List.mem_cons.mp hx with e | hx
        · rw [e]; exact h r (by simp)
        · exact ih _ (fun y hy => h y (by simp [hy])) x hx
  have := hd [] rs hs
  clear hd hs
  generalize distinct [] rs = l at this
  induction l with
  | nil => rfl
  | cons x l ih =>
    rw [List.filterMap_cons, List.map_cons, ← ih (fun y hy => this y (by simp [hy]))]
    simp only [Function.comp, splitN_key _ _ x.call (this x (by simp))]

section demo

private def r1 : Reg Nat := ⟨lit "p", lit "S", lit "Get", 1⟩
private def r2 : Reg Nat := ⟨lit "p", lit "S", lit "Put", 2⟩
private def r3 : Reg Nat := ⟨lit "p", lit "S", lit "Get", 3⟩

/-- The hypotheses are met by an ordinary history with a repeated name. -/
example : (∀ x ∈ [r1, r2, r3], Plain x.pkg x.service) ∧
    (runAll new [r1, r2, r3]).2 = [true, true, false] ∧
    lookup (runAll new [r1, r2, r3]).1 (lit "p") (lit "S") (lit "Get") = some 1 ∧
    (handlers (runAll new [r1, r2, r3]).1).map (·.2) = [1, 2] := by
  refine ⟨?_, by decide +kernel, by decide +kernel, by decide +kernel⟩
  intro x hx
  simp only [List.mem_cons, List.not_mem_nil, or_false] at hx
  rcases hx with h | h | h <;> subst h <;>
    exact ⟨by decide +kernel, by decide +kernel⟩

end demo

end Claw.Registry

namespace Claw.Health

open Claw

/-- The last status set for a service in a history, if any. -/
def lastSet : List (Str × Status) → Str → Option Status
  | [], _ => none
  | (k, st) :: hist, service =>
    match lastSet hist service with
    | some x => some x
    | none => if k = service then some st else none

/-- C52: after any history of `SetServingStatus` calls, `Check` (and `ServingStatus`) give the
last status set; when none was set, the overall service (empty name) is serving (1) and every
other service is unknown (3). -/
theorem C52_last_status (hist : List (Str × Status)) (service : Str) :
    check (hist.foldl (fun s e => setServingStatus s e.1 e.2) new) service =
      (match lastSet hist service with
       | some st => st
       | none => if service = [] then 1 else 3) ∧
    servingStatus (hist.foldl (fun s e => setServingStatus s e.1 e.2) new) service =
      check (hist.foldl (fun s e => setServingStatus s e.1 e.2) new) service := by
  refine ⟨?_, rfl⟩
  have key : ∀ (hist : List (Str × Status)) (s : State),
      (hist.foldl (fun s e => setServingStatus s e.1 e.2) s) service =
        match lastSet hist service with
        | some st => some st
        | none => s service := by
    intro hist
    induction hist with
    | nil => intro s; rfl
    | cons e hist ih =>
      intro s
      rw [List.foldl_cons, ih]
      simp only [lastSet]
      cases lastSet hist service with
      | some x => rfl
      | none =>
        simp only [setServingStatus, Dict.set]
        by_cases h : service = e.1
        · simp [h]
        · have h' : ¬ e.1 = service := fun q => h q.symm
          simp [h, h']
  unfold check
  rw [key]
  cases hl : lastSet hist service with
  | some x => rfl
  | none =>
    simp only [new, Dict.set, Dict.empty]
    by_cases h : service = []
    · simp [h]; rfl
    · simp [h]; rfl

example : check (setServingStatus (setServingStatus new (lit "db") 1) (lit "db") 2) (lit "db") = 2
    ∧ check new [] = 1 ∧ check new (lit "db") = 3 := by decide +kernel

end Claw.Health
