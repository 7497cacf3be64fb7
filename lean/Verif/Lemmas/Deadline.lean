import Verif.Spec.Deadline

/-! # Lemmas about deadlines -/

namespace Claw.Deadline

open Claw.ErrCode (Err)

theorem millis_pos (x : Int) (h : 0 ≤ x) : millis x = x / ms := by
  unfold millis
  exact Int.tdiv_eq_ediv_of_nonneg h

theorem millis_le (x : Int) (h : x < ms) : millis x ≤ 0 := by
  unfold millis
  by_cases hx : 0 ≤ x
  · rw [Int.tdiv_eq_ediv_of_nonneg hx]; unfold ms at *; omega
  · have : x.tdiv ms = -((-x).tdiv ms) := by rw [Int.neg_tdiv]; omega
    rw [this, Int.tdiv_eq_ediv_of_nonneg (by omega)]
    unfold ms at *; omega

theorem int64_small (x : Int) (h : -(2 ^ 63) ≤ x) (h2 : x < 2 ^ 63) : int64 x = x := by
  unfold int64
  rw [Int.bmod_def]
  omega

theorem duration_small (n : Nat) (h : n ≤ 9223372036854) : duration n = n * ms := by
  unfold duration
  rw [int64_small n (by omega) (by omega), int64_small] <;> unfold ms <;> omega

theorem int64_big (x : Int) (h : 2 ^ 63 ≤ x) (h2 : x < 2 ^ 64) : int64 x = x - 2 ^ 64 := by
  unfold int64
  rw [Int.bmod_def]
  omega

theorem duration_big (n : Nat) (h : 9223372036855 ≤ n) (h2 : n ≤ 18446744073709) : duration n < 0 := by
  unfold duration
  rw [int64_small n (by omega) (by omega), int64_big] <;> unfold ms <;> omega

theorem openDeadline_long (t d : Int) (h : t + ms ≤ d) :
    0 < openDeadline t (some d) ∧ openDeadline t (some d) ≤ 9223372036854 ∧ (openDeadline t (some d) : Int) * ms ≤ d - t ∧
      (d - t < 2 ^ 63 → d - t - ms < (openDeadline t (some d) : Int) * ms) := by
  have hs : subTime d t = min (d - t) (2 ^ 63 - 1) := by unfold subTime ms at *; omega
  have hm := millis_pos (subTime d t) (by rw [hs]; unfold ms at *; omega)
  have hp : millis (subTime d t) > 0 := by rw [hm, hs]; unfold ms at *; omega
  have : openDeadline t (some d) = (millis (subTime d t)).toNat := by
    simp only [openDeadline]; rw [if_pos hp]
  rw [this]
  rw [hm, hs] at *
  unfold ms at *
  refine ⟨?_, ?_, ?_, ?_⟩ <;> omega

theorem openDeadline_short (t d : Int) (h : d < t + ms) : openDeadline t (some d) = 0 := by
  have hs : subTime d t < ms := by unfold subTime ms at *; omega
  have := millis_le _ hs
  simp only [openDeadline]
  rw [if_neg (by omega)]

theorem withDeadline_le (p : Option Int) (d : Int) : ∃ e, withDeadline p d = some e ∧ e ≤ d := by
  cases p with
  | none => exact ⟨d, rfl, Int.le_refl _⟩
  | some p =>
    by_cases h : p < d
    · exact ⟨p, by simp [withDeadline, h], by omega⟩
    · exact ⟨d, by simp [withDeadline, h], Int.le_refl _⟩

theorem runSync_late (h : Handler) (hh : Obeys h) (d : Int) (r : Req) (hr : d ≤ r.arrives) (post : List Req) :
    ∀ (pre : List Req) (now : Int), ((runSync h (some d) now (pre ++ r :: post)).1.length ≤ pre.length) ∧
      (runSync h (some d) now (pre ++ r :: post)).1.map (·.1) <+: pre.map (·.id) ∧
      ∃ e, (runSync h (some d) now (pre ++ r :: post)).2 = some e := by
  intro pre
  induction pre with
  | nil =>
    intro now
    have := hh d (max now r.arrives) r.data (by omega)
    simp only [List.nil_append, runSync]
    revert this
    generalize h (some d) (max now r.arrives) r.data = x
    intro hx
    obtain ⟨x1, x2⟩ := x
    simp only at hx
    subst hx
    exact ⟨Nat.le_refl _, List.nil_prefix, _, rfl⟩
  | cons q pre ih =>
    intro now
    simp only [List.cons_append, runSync]
    generalize h (some d) (max now q.arrives) q.data = x
    obtain ⟨x1, x2⟩ := x
    cases x1 with
    | error e => exact ⟨by simp, List.nil_prefix, _, rfl⟩
    | ok v =>
      obtain ⟨h1, h2, e, h3⟩ := ih (max (max now q.arrives) x2)
      refine ⟨by simp only [List.length_cons]; omega, ?_, e, h3⟩
      simp only [List.map_cons]
      exact List.cons_prefix_cons.2 ⟨rfl, h2⟩

end Claw.Deadline
