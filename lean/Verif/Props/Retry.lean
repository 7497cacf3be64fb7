import Verif.Model.Retry
import Verif.Lemmas.GoStr

/-!
# C28: the retry interceptor
-/

namespace Claw.Retry

variable {Q R E : Type}

/-! ## Specification

`Story p env k res` tells, without reference to the loop, how a retried call may end: the
calls `0 … k-1` failed with retryable errors and the waits after them were not cancelled, and
call `k` decides the result. -/

structure Story (p : Policy E) (env : Env R E) (limit k : Nat) (res : Outcome R E) : Prop where
  bound : k ≤ limit
  earlier : ∀ i, i < k → ∃ e, env.out i = .fail e ∧ p.retryable e = true ∧ env.done i = false
  ending :
    (∃ r, env.out k = .reply r ∧ res = .reply r) ∨
    (∃ e, env.out k = .fail e ∧ p.retryable e = false ∧ res = .fail e) ∨
    (∃ e, env.out k = .fail e ∧ p.retryable e = true ∧ k < limit ∧ env.done k = true ∧
      res = .fail env.ctxErr) ∨
    (∃ e, env.out k = .fail e ∧ p.retryable e = true ∧ k = limit ∧ res = .fail e)

/-- The calls of a trace. -/
def callsOf (t : List (Ev Q R E)) : List (Q × Outcome R E) :=
  t.filterMap fun | .call q o => some (q, o) | .wait _ => none

/-- The waits of a trace. -/
def waitsOf (t : List (Ev Q R E)) : List Int :=
  t.filterMap fun | .call _ _ => none | .wait d => some d

/-- The waits between calls, as the documentation describes them: the initial backoff, then
multiplied and capped. -/
def backoffs (p : Policy E) : Nat → Int
  | 0 => p.initialBackoff
  | n + 1 => min (p.mul (backoffs p n)) p.maxBackoff

theorem range'_cons (a n : Nat) : List.range' a (n + 1) = a :: List.range' (a + 1) n := by
  simp [List.range'_succ]

section steps
variable (p : Policy E) (env : Env R E) (req : Q)

theorem loop_reply {left a : Nat} {b : Int} {r : R} (ho : env.out a = .reply r) :
    loop p env req left a b = ([.call req (env.out a)], .reply r) := by
  rw [loop.eq_def]; simp only [ho]

theorem loop_final {left a : Nat} {b : Int} {e : E} (ho : env.out a = .fail e)
    (hr : p.retryable e = false) :
    loop p env req left a b = ([.call req (env.out a)], .fail e) := by
  rw [loop.eq_def]; simp [ho, hr]

theorem loop_last {a : Nat} {b : Int} {e : E} (ho : env.out a = .fail e)
    (hr : p.retryable e = true) :
    loop p env req 0 a b = ([.call req (env.out a)], .fail e) := by
  rw [loop.eq_def]; simp [ho, hr]

theorem loop_cancel {left a : Nat} {b : Int} {e : E} (ho : env.out a = .fail e)
    (hr : p.retryable e = true) (hd : env.done a = true) :
    loop p env req (left + 1) a b = ([.call req (env.out a)], .fail env.ctxErr) := by
  rw [loop.eq_def]; simp [ho, hr, hd]

theorem loop_next {left a : Nat} {b : Int} {e : E} (ho : env.out a = .fail e)
    (hr : p.retryable e = true) (hd : env.done a = false) :
    loop p env req (left + 1) a b =
      (.call req (env.out a) :: .wait b ::
        (loop p env req left (a + 1) (min (p.mul b) p.maxBackoff)).1,
       (loop p env req left (a + 1) (min (p.mul b) p.maxBackoff)).2) := by
  have hb : (if p.mul b > p.maxBackoff then p.maxBackoff else p.mul b) =
      min (p.mul b) p.maxBackoff := by split <;> omega
  rw [loop.eq_def]; simp [ho, hr, hd, hb]

end steps

private theorem loop_story (p : Policy E) (env : Env R E) (req : Q) :
    ∀ (left a : Nat),
      (∀ i, i < a → ∃ e, env.out i = .fail e ∧ p.retryable e = true ∧ env.done i = false) →
      ∃ k, a ≤ k ∧ Story p env (a + left) k (loop p env req left a (backoffs p a)).2 ∧
        callsOf (loop p env req left a (backoffs p a)).1 =
          (List.range' a (k + 1 - a)).map (fun i => (req, env.out i)) ∧
        waitsOf (loop p env req left a (backoffs p a)).1 =
          (List.range' a (k - a)).map (backoffs p) := by
  intro left
  induction left with
  | zero =>
    intro a hprev
    have ha : a + 1 - a = 1 := by omega
    cases ho : env.out a with
    | reply r =>
      rw [loop_reply p env req ho]
      refine ⟨a, Nat.le_refl _, ⟨by omega, hprev, Or.inl ⟨r, ho, rfl⟩⟩, ?_, ?_⟩
      · simp [callsOf, ha]
      · simp [waitsOf]
    | fail e =>
      cases hr : p.retryable e with
      | true =>
        rw [loop_last p env req ho hr]
        refine ⟨a, Nat.le_refl _,
          ⟨by omega, hprev, Or.inr (Or.inr (Or.inr ⟨e, ho, hr, rfl, rfl⟩))⟩, ?_, ?_⟩
        · simp [callsOf, ha]
        · simp [waitsOf]
      | false =>
        rw [loop_final p env req ho hr]
        refine ⟨a, Nat.le_refl _,
          ⟨by omega, hprev, Or.inr (Or.inl ⟨e, ho, hr, rfl⟩)⟩, ?_, ?_⟩
        · simp [callsOf, ha]
        · simp [waitsOf]
  | succ left ih =>
    intro a hprev
    have ha : a + 1 - a = 1 := by omega
    cases ho : env.out a with
    | reply r =>
      rw [loop_reply p env req ho]
      refine ⟨a, Nat.le_refl _, ⟨by omega, hprev, Or.inl ⟨r, ho, rfl⟩⟩, ?_, ?_⟩
      · simp [callsOf, ha]
      · simp [waitsOf]
    | fail e =>
      cases hr : p.retryable e with
      | false =>
        rw [loop_final p env req ho hr]
        refine ⟨a, Nat.le_refl _,
          ⟨by omega, hprev, Or.inr (Or.inl ⟨e, ho, hr, rfl⟩)⟩, ?_, ?_⟩
        · simp [callsOf, ha]
        · simp [waitsOf]
      | true =>
        cases hd : env.done a with
        | true =>
          rw [loop_cancel p env req ho hr hd]
          refine ⟨a, Nat.le_refl _, ⟨by omega, hprev,
            Or.inr (Or.inr (Or.inl ⟨e, ho, hr, by omega, hd, rfl⟩))⟩, ?_, ?_⟩
          · simp [callsOf, ha]
          · simp [waitsOf]
        | false =>
          have hprev' : ∀ i, i < a + 1 →
              ∃ e, env.out i = .fail e ∧ p.retryable e = true ∧ env.done i = false := by
            intro i hi
            by_cases hij : i < a
            · exact hprev i hij
            · have : i = a := by omega
              subst this
              exact ⟨e, ho, hr, hd⟩
          obtain ⟨k, hk, hs, hc, hw⟩ := ih (a + 1) hprev'
          simp only [backoffs] at hs hc hw
          rw [loop_next p env req ho hr hd]
          refine ⟨k, by omega, ?_, ?_, ?_⟩
          · have hlim : a + (left + 1) = a + 1 + left := by omega
            rw [hlim]
            exact hs
          · have h1 : k + 1 - a = (k + 1 - (a + 1)) + 1 := by omega
            rw [h1, range'_cons, List.map_cons, ← hc]
            simp [callsOf]
          · have h1 : k - a = (k - (a + 1)) + 1 := by omega
            rw [h1, range'_cons, List.map_cons, ← hw]
            simp [waitsOf]

/-- **C28.**  For every policy, every stream of outcomes and every pattern of cancellation:
the interceptor makes `k + 1` calls for some `k ≤ MaxAttempts`, all with the request it was
given; all but the last failed with retryable errors; the last call is a success, a
non-retryable error, a retryable error whose wait was cancelled, or the `MaxAttempts + 1`-st
call, and the result is that call's result (the context error when cancelled).  Between calls
it waits exactly the documented backoffs.  The bound is one more than `MaxAttempts`; see
`C28_one_call_too_many`. -/
theorem C28_retry_partial (p : Policy E) (env : Env R E) (req : Q) :
    ∃ k, Story { p with retryable := fun e => p.retryable e && decide (0 < p.maxAttempts) } env
          p.maxAttempts.toNat k (intercept p env req).2 ∧
      callsOf (intercept p env req).1 =
        (List.range (k + 1)).map (fun i => (req, env.out i)) ∧
      waitsOf (intercept p env req).1 = (List.range k).map (backoffs p) := by
  by_cases hm : p.maxAttempts ≤ 0
  · have hz : p.maxAttempts.toNat = 0 := by omega
    have hnp : decide (0 < p.maxAttempts) = false := by
      simp only [decide_eq_false_iff_not]; omega
    refine ⟨0, ⟨by omega, by intro i hi; omega, ?_⟩, ?_, ?_⟩
    · cases ho : env.out 0 with
      | reply r => exact Or.inl ⟨r, rfl, by simp [intercept, hm, ho]⟩
      | fail e => exact Or.inr (Or.inl ⟨e, rfl, by simp [hnp], by simp [intercept, hm, ho]⟩)
    · simp [intercept, hm, callsOf, List.range_succ]
    · simp [intercept, hm, waitsOf]
  · have hp : decide (0 < p.maxAttempts) = true := by
      simp only [decide_eq_true_eq]; omega
    obtain ⟨k, -, hs, hc, hw⟩ := loop_story p env req p.maxAttempts.toNat 0
      (by intro i hi; omega)
    simp only [backoffs] at hs hc hw
    refine ⟨k, ?_, ?_, ?_⟩
    · simp only [intercept, hm, if_false, hp, Bool.and_true]
      simpa using hs
    · simpa [intercept, hm, List.range_eq_range'] using hc
    · simpa [intercept, hm, List.range_eq_range'] using hw

/-- The number of calls is never more than `MaxAttempts + 1` (and never 0). -/
theorem C28_bounded_calls (p : Policy E) (env : Env R E) (req : Q) :
    1 ≤ (callsOf (intercept p env req).1).length ∧
      (callsOf (intercept p env req).1).length ≤ p.maxAttempts.toNat + 1 := by
  obtain ⟨k, hs, hc, -⟩ := C28_retry_partial p env req
  have := hs.bound
  simp [hc]
  omega

/-- The property as documented is false for every enabled policy: a server that keeps failing
with retryable errors is called `MaxAttempts + 1` times. -/
theorem C28_one_call_too_many (p : Policy E) (env : Env R E) (req : Q)
    (hm : 0 < p.maxAttempts)
    (hfail : ∀ i, ∃ e, env.out i = .fail e ∧ p.retryable e = true)
    (hdone : ∀ i, env.done i = false) :
    ((callsOf (intercept p env req).1).length : Int) = p.maxAttempts + 1 := by
  obtain ⟨k, hs, hc, -⟩ := C28_retry_partial p env req
  have hk : k = p.maxAttempts.toNat := by
    obtain ⟨e, he, hr⟩ := hfail k
    rcases hs.ending with ⟨r, h, -⟩ | ⟨e', h, hr', -⟩ | ⟨e', -, -, -, h, -⟩ | ⟨_, -, -, h, -⟩
    · rw [he] at h; cases h
    · rw [he] at h; injection h with h; subst h
      simp [hr, hm] at hr'
    · rw [hdone k] at h; cases h
    · exact h
  rw [hc]
  simp only [List.length_map, List.length_range]
  omega

/-- Every wait after the first is at most `MaxBackoff`; the first is `InitialBackoff`,
uncapped. -/
theorem C28_backoff_capped (p : Policy E) (env : Env R E) (req : Q) (i : Nat) (d : Int)
    (h : (waitsOf (intercept p env req).1)[i]? = some d) :
    (i = 0 → d = p.initialBackoff) ∧ (0 < i → d ≤ p.maxBackoff) := by
  obtain ⟨k, -, -, hw⟩ := C28_retry_partial p env req
  rw [hw] at h
  rw [List.getElem?_map, Option.map_eq_some_iff] at h
  obtain ⟨j, hj, hd⟩ := h
  have : j = i := by
    rw [List.getElem?_eq_some_iff] at hj
    obtain ⟨hlt, hj⟩ := hj
    simpa using hj.symm
  subst this
  subst hd
  cases j with
  | zero => simp [backoffs]
  | succ j => simp only [backoffs]; omega

/-! ## Concrete cases -/

/-- A policy like `DefaultPolicy()` (durations in ms). -/
def demoPolicy : Policy Str :=
  { maxAttempts := 3, initialBackoff := 100, maxBackoff := 150, mul := (2 * ·),
    retryable := isRetryable }

/-- Two retryable failures, then a reply. -/
def demoEnv : Env Nat Str :=
  { out := fun i => if i < 2 then .fail (lit "ErrUnavailable: down") else .reply 7
    done := fun _ => false, ctxErr := lit "context canceled" }

/-- A server that always fails with a transient error. -/
def demoDown : Env Nat Str := { demoEnv with out := fun _ => .fail (lit "ErrInternal") }

example : intercept demoPolicy demoEnv (Q := Nat) 5 =
    ([.call 5 (.fail (lit "ErrUnavailable: down")), .wait 100,
      .call 5 (.fail (lit "ErrUnavailable: down")), .wait 150,
      .call 5 (.reply 7)], .reply 7) := by decide +kernel

/-- The documentation of `DefaultPolicy` says 3 attempts in total; 4 are made. -/
example : (callsOf (intercept demoPolicy demoDown (0 : Nat)).1).length = 4 := by
  decide +kernel

/-- The hypotheses of `C28_one_call_too_many` are satisfiable. -/
example : (∀ i, ∃ e, demoDown.out i = .fail e ∧ demoPolicy.retryable e = true) ∧
    ∀ i, demoDown.done i = false :=
  ⟨fun _ => ⟨lit "ErrInternal", rfl, by decide +kernel⟩, fun _ => rfl⟩

/-- Cancellation during the first wait. -/
example : intercept demoPolicy { demoEnv with done := fun _ => true } (5 : Nat) =
    ([.call 5 (.fail (lit "ErrUnavailable: down"))], .fail (lit "context canceled")) := by
  decide +kernel

/-! ## The default classification -/

def retryNames : List String := ["ErrInternal", "ErrUnavailable", "ErrResourceExhausted", "ErrAborted"]

def finalNames : List String :=
  ["ErrDeadlineExceeded", "ErrCanceled", "ErrInvalidArgument", "ErrNotFound", "ErrAlreadyExists",
   "ErrPermissionDenied", "ErrUnauthenticated", "ErrUnimplemented"]

/-- Without a custom predicate an error is retried exactly when its text mentions one of the
four transient codes and none of the eight final ones: for every text. -/
theorem C28_default_classification (s : Str) :
    isRetryable s = true ↔
      (∃ n ∈ retryNames, Occurs (lit n) s) ∧ ∀ n ∈ finalNames, ¬ Occurs (lit n) s := by
  simp only [← contains_iff, retryNames, finalNames, List.mem_cons, List.not_mem_nil, or_false,
    exists_eq_or_imp, exists_eq_left, forall_eq_or_imp, forall_eq, isRetryable]
  grind

example : isRetryable (lit "rpc: ErrUnavailable") = true := by decide +kernel
example : isRetryable (lit "ErrInternal: lookup said ErrNotFound") = false := by decide +kernel

/-- Because the classification reads the text and the client's text carries only the server's
message, the server's error code has no influence: an "unavailable" failure (14) with a plain
message is not retried, and a "not found" failure (5) whose message mentions a transient code
is. -/
theorem C28_code_is_not_consulted :
    isRetryable (closeErrorText 14 (lit "backend down")) = false ∧
    isRetryable (closeErrorText 5 (lit "no key named ErrInternal")) = true := by decide +kernel

end Claw.Retry
