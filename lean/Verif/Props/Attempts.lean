import Verif.Model.Attempts

/-!
# C150: a call that is retried or hedged is tried again

The specification is `Wanted`: what a caller expects of a retry policy, said in terms of what the handler does. The
claim is false: all attempts of a call go through one session, which ends with the first error and handles one request
at a time.
-/

namespace Claw.Attempts

open Claw Claw.Retry

variable {E : Type}

/-- The invocation whose outcome the caller should get: the first from `n` on, at most `left` later, that succeeds or
fails for good. -/
def Wanted (p : Policy E) (h : Script E) (req : Bytes) : (left n : Nat) → Outcome Bytes E
  | left, n =>
    match h n req with
    | .reply r => .reply r
    | .fail e =>
      if !p.retryable e then .fail e
      else match left with
        | 0 => .fail e
        | left + 1 => Wanted p h req left (n + 1)

theorem ended_dead (l : Link E) (pick : Bool) (h : l.live = false) :
    (l.ended pick).1.live = false ∧ (l.ended pick).1.calls = l.calls := by
  unfold Link.ended
  cases l.note with
  | none => exact ⟨h, rfl⟩
  | some e => cases pick <;> exact ⟨h, rfl⟩

theorem doCall_dead (h : Script E) (pick : Bool) (l : Link E) (req : Bytes) (hl : l.live = false) :
    (l.doCall h pick req).1.live = false ∧ (l.doCall h pick req).1.calls = l.calls := by
  simp only [Link.doCall, hl]; exact ended_dead l pick hl

/-- Once the session has ended the handler is not invoked again. -/
theorem retryLoop_dead (p : Policy E) (h : Script E) (u : Luck E) (req : Bytes) (left : Nat) :
    ∀ attempt (l : Link E), l.live = false →
      (retryLoop p h u req left attempt l).1.live = false ∧ (retryLoop p h u req left attempt l).1.calls = l.calls := by
  induction left with
  | zero =>
    intro a l hl
    unfold retryLoop
    have hd := doCall_dead h (u.pick a) l req hl
    generalize l.doCall h (u.pick a) req = x at hd
    obtain ⟨l', g⟩ := x
    cases g with
    | reply r => exact hd
    | panic => exact hd
    | fail e => dsimp only; split <;> exact hd
  | succ left ih =>
    intro a l hl
    unfold retryLoop
    have hd := doCall_dead h (u.pick a) l req hl
    generalize l.doCall h (u.pick a) req = x at hd
    obtain ⟨l', g⟩ := x
    cases g with
    | reply r => exact hd
    | panic => exact hd
    | fail e =>
      dsimp only
      split
      · exact hd
      · split
        · exact hd
        · obtain ⟨k1, k2⟩ := ih (a + 1) l' hd.1
          exact ⟨k1, k2.trans hd.2⟩

theorem doCall_calls (h : Script E) (pick : Bool) (l : Link E) (req : Bytes) (hl : l.live = true) :
    (l.doCall h pick req).1.calls = l.calls + 1 ∧
      ((∃ r, h l.calls req = .reply r ∧ (l.doCall h pick req) = ({ l with calls := l.calls + 1 }, .reply r)) ∨
        (l.doCall h pick req).1.live = false) := by
  simp only [Link.doCall, hl, if_true]
  cases hh : h l.calls req with
  | reply r => exact ⟨rfl, .inl ⟨r, rfl, by simp [hl]⟩⟩
  | fail e =>
    have := ended_dead (E := E) ⟨false, some e, l.calls + 1⟩ pick rfl
    exact ⟨this.2, .inr this.1⟩

/-- **C150, refuted (1): the handler is not asked again.** Whatever the policy, the outcomes and the schedule, a call
on a session that has not ended invokes the handler exactly once. -/
theorem C150_one_invocation (p : Policy E) (h : Script E) (u : Luck E) (l : Link E) (req : Bytes)
    (hl : l.live = true) : (retryCall p h u l req).1.calls = l.calls + 1 := by
  unfold retryCall
  split
  · exact (doCall_calls h _ l req hl).1
  · obtain ⟨k1, k2⟩ := doCall_calls h (u.pick 0) l req hl
    unfold retryLoop
    rcases k2 with ⟨r, _, k2⟩ | k2
    · rw [k2]
    · generalize l.doCall h (u.pick 0) req = x at k1 k2
      obtain ⟨l', g⟩ := x
      cases g with
      | reply r => exact k1
      | panic => exact k1
      | fail e =>
        dsimp only
        split
        · exact k1
        · split
          · exact k1
          · split
            · exact k1
            · exact (retryLoop_dead p h u req _ 1 l' k2).2.trans k1

/-- **C150, refuted (2): a retry panics.** If the first invocation fails with an error the policy retries, then however
the handler would answer the second one the call panics, in every schedule in which the context does not end first. -/
theorem C150_retry_panics (p : Policy E) (h : Script E) (u : Luck E) (l : Link E) (req : Bytes) (e : E)
    (hl : l.live = true) (hf : h l.calls req = .fail e) (hr : p.retryable e = true) (hm : 0 < p.maxAttempts)
    (hd : u.done 0 = false) : (retryCall p h u l req).2 = .panic := by
  unfold retryCall
  rw [if_neg (by omega)]
  obtain ⟨n, hn⟩ : ∃ n, p.maxAttempts.toNat = n + 1 := ⟨p.maxAttempts.toNat - 1, by omega⟩
  rw [hn]
  unfold retryLoop
  simp only [Link.doCall, hl, if_true, hf, Link.ended]
  cases u.pick 0 with
  | false => rfl
  | true =>
    simp only [if_true, hr, Bool.not_true, hd]
    unfold retryLoop
    simp [Link.doCall, Link.ended]

/-- **C150, refuted, against the specification.** There are policies and handlers, for every number of attempts, for
which the caller should get a reply and the call panics in every schedule. -/
theorem C150_reply_not_given (p : Policy E) (e : E) (hr : p.retryable e = true) (hm : 0 < p.maxAttempts) (r : Bytes) :
    ∃ h : Script E, ∀ (u : Luck E) (req : Bytes), u.done 0 = false →
      Wanted p h req p.maxAttempts.toNat 0 = .reply r ∧ (retryCall p h u Link.new req).2 = .panic := by
  refine ⟨fun n _ => if n = 0 then .fail e else .reply r, fun u req hd => ⟨?_, ?_⟩⟩
  · obtain ⟨n, hn⟩ : ∃ n, p.maxAttempts.toNat = n + 1 := ⟨p.maxAttempts.toNat - 1, by omega⟩
    rw [hn]
    unfold Wanted
    simp only [if_true, hr, Bool.not_true]
    unfold Wanted
    simp
  · exact C150_retry_panics p _ u Link.new req e rfl (by simp [Link.new]) hr hm hd

/-- **C150, refuted (3): the client is used up.** After a call to which the handler answered with an error, every later
call on the client panics, with and without retries. -/
theorem C150_later_calls_panic (p p' : Policy E) (h : Script E) (u : Luck E) (l : Link E) (req : Bytes) (e : E)
    (hl : l.live = true) (hf : h l.calls req = .fail e) (hg : (retryCall p h u l req).2 = .fail e)
    (rest : List (Bytes × Luck E)) :
    (retryCalls p' h rest (retryCall p h u l req).1).2 = rest.map fun _ => .panic := by
  have key : ∀ l : Link E, l.live = false → l.note = none → ∀ rest,
      (retryCalls p' h rest l).2 = rest.map fun _ => .panic := by
    intro l h1 h2 rest
    have hone : ∀ u req, retryCall p' h u l req = (l, .panic) := by
      intro u req
      have hdo : ∀ pick, l.doCall h pick req = (l, .panic) := by
        intro pick; simp [Link.doCall, h1, Link.ended, h2]
      unfold retryCall
      split
      · exact hdo _
      · unfold retryLoop; rw [hdo]
    induction rest with
    | nil => rfl
    | cons x rest ih =>
      obtain ⟨req, u⟩ := x
      simp only [retryCalls, hone, List.map_cons, ih]
  have hst : (retryCall p h u l req).1.live = false ∧ (retryCall p h u l req).1.note = none := by
    revert hg
    unfold retryCall
    split
    · simp only [Link.doCall, hl, if_true, hf, Link.ended]
      cases u.pick 0 <;> simp
    · rename_i hm
      obtain ⟨n, hn⟩ : ∃ n, p.maxAttempts.toNat = n + 1 := ⟨p.maxAttempts.toNat - 1, by omega⟩
      rw [hn]
      unfold retryLoop
      simp only [Link.doCall, hl, if_true, hf, Link.ended]
      cases u.pick 0 with
      | false => simp
      | true =>
        simp only [if_true]
        split
        · simp
        · split
          · simp
          · unfold retryLoop
            simp [Link.doCall, Link.ended]
  exact key _ hst.1 hst.2 rest

/-- **C150, partial.** As long as the handler succeeds every call gets its reply, and the session stays, with any
policy and schedule. Missing: everything after an error. -/
theorem C150_success_partial (p : Policy E) (h : Script E) (reply : Nat → Bytes) (calls : List (Bytes × Luck E)) :
    ∀ l : Link E, l.live = true → (∀ i x, calls[i]? = some x → h (l.calls + i) x.1 = .reply (reply (l.calls + i))) →
      (retryCalls p h calls l).2 = (List.range calls.length).map (fun i => .reply (reply (l.calls + i))) ∧
      (retryCalls p h calls l).1 = { l with calls := l.calls + calls.length } := by
  induction calls with
  | nil => intro l _ _; exact ⟨rfl, rfl⟩
  | cons x calls ih =>
    intro l hl hs
    obtain ⟨req, u⟩ := x
    have h0 := hs 0 (req, u) rfl
    simp only [Nat.add_zero] at h0
    have hone : retryCall p h u l req = ({ l with calls := l.calls + 1 }, .reply (reply l.calls)) := by
      have hdo : ∀ pick, l.doCall h pick req = ({ l with calls := l.calls + 1 }, .reply (reply l.calls)) := by
        intro pick; simp only [Link.doCall, hl, if_true, h0]
      unfold retryCall
      split
      · exact hdo _
      · unfold retryLoop; rw [hdo]
    obtain ⟨k1, k2⟩ := ih { l with calls := l.calls + 1 } hl (by
      intro i y hy
      have := hs (i + 1) y (by simpa using hy)
      simpa [Nat.add_assoc, Nat.add_comm 1 i] using this)
    simp only [retryCalls, hone]
    refine ⟨?_, ?_⟩
    · rw [k1, List.length_cons, List.range_succ_eq_map, List.map_cons, List.map_map]
      simp [Function.comp_def, Nat.add_assoc, Nat.add_comm 1]
    · rw [k2]; simp [Nat.add_assoc, Nat.add_comm 1]

/-- **C150, partial (one call).** If the first outcome is final, a reply or an error that is not retried, the caller gets
what the specification wants, provided that after an error the select takes `closeCh`. -/
theorem C150_first_final_partial (p : Policy E) (h : Script E) (u : Luck E) (l : Link E) (req : Bytes) (hl : l.live = true)
    (hf : (∃ r, h l.calls req = .reply r) ∨ ∃ e, h l.calls req = .fail e ∧ p.retryable e = false)
    (hp : u.pick 0 = true) :
    (retryCall p h u l req).2 = match Wanted p h req p.maxAttempts.toNat l.calls with
      | .reply r => .reply r
      | .fail e => .fail e := by
  unfold retryCall retryLoop Wanted
  rcases hf with ⟨r, hr⟩ | ⟨e, he, hn⟩
  · simp [Link.doCall, hl, hr]
  · simp [Link.doCall, hl, he, hn, Link.ended, hp]

/-! ### Hedging -/

theorem answered_after (reqs : List (Nat × Nat)) : ∀ t, ∀ x ∈ answered t reqs, t ≤ x := by
  induction reqs with
  | nil => intro t x hx; simp [answered] at hx
  | cons a reqs ih =>
    intro t x hx
    obtain ⟨arr, d⟩ := a
    simp only [answered, List.mem_cons] at hx
    rcases hx with rfl | hx
    · omega
    · have := ih _ x hx; omega

/-- **C150, refuted (4): a hedge is never faster.** However slow the original request is and however fast the hedges
would be, the answer to the original is the first; the time of it does not depend on the hedges. -/
theorem C150_hedge_no_gain (t arrive takes : Nat) (hedges : List (Nat × Nat)) :
    ∃ first rest, answered t ((arrive, takes) :: hedges) = first :: rest ∧ first = max t arrive + takes ∧
      ∀ x ∈ rest, first ≤ x :=
  ⟨_, _, rfl, rfl, answered_after hedges _⟩

/-- Other calls wait for the hedges: the next request is answered only after all of them were handled. -/
theorem C150_hedge_delays (hedges : List (Nat × Nat)) (arrive takes : Nat) : ∀ t,
    ∃ x, (answered t (hedges ++ [(arrive, takes)])).getLast? = some x ∧ t + (hedges.map Prod.snd).sum + takes ≤ x := by
  induction hedges with
  | nil => intro t; exact ⟨max t arrive + takes, rfl, by simp; omega⟩
  | cons a hedges ih =>
    intro t
    obtain ⟨arr, d⟩ := a
    obtain ⟨x, h1, h2⟩ := ih (max t arr + d)
    refine ⟨x, ?_, ?_⟩
    · simp only [List.cons_append, answered]
      rw [List.getLast?_cons, h1]; rfl
    · simp only [List.map_cons, List.sum_cons]; omega

/-- The hedges invoke the handler again for the same request: once for the original, and for each of the hedges sent
before the reply, unless one fails. A handler that succeeds is invoked `k + 1` times. -/
theorem C150_hedge_invocations (fatal : E → Bool) (closed : E) (h : Script E) (most k out : Nat) (pick : Bool) (l : Link E)
    (req : Bytes) (hl : l.live = true) (hs : ∀ n, l.calls ≤ n → n ≤ l.calls + k → ∃ r, h n req = .reply r) :
    (hedgeCall fatal closed h most k out pick l req).1.calls = l.calls + 1 + k := by
  have key : ∀ k (l : Link E), (∀ n, l.calls ≤ n → n < l.calls + k → ∃ r, h n req = .reply r) →
      (Link.hedges h req k l).calls = l.calls + k := by
    intro k
    induction k with
    | zero => intro l _; rfl
    | succ k ih =>
      intro l hs
      obtain ⟨r, hr⟩ := hs l.calls (Nat.le_refl _) (by omega)
      simp only [Link.hedges, hr]
      rw [ih]
      · show l.calls + 1 + k = _; omega
      · intro n h1 h2
        exact hs n (by simp only at h1; omega) (by simp only at h2; omega)
  obtain ⟨r, hr⟩ := hs l.calls (Nat.le_refl _) (by omega)
  have hc : ∀ x : Link E, (x.cancel closed).calls = x.calls := by
    intro x; unfold Link.cancel; split <;> rfl
  have := key k { l with calls := l.calls + 1 } (fun n h1 h2 => hs n (by simp only at h1; omega) (by simp only at h2; omega))
  simp only [hl] at this
  simp only [hedgeCall, hl, if_true, hr]
  split
  · exact this
  · rw [hc]; exact this

/-- **C150, refuted (5): a hedge that is not needed ends the session.** If a hedge is still waiting when the reply to
the original is there, no later call on the client reaches the handler or gets a reply. -/
theorem C150_hedge_ends_session (fatal : E → Bool) (closed : E) (p : Policy E) (h : Script E) (most k out : Nat)
    (pick : Bool) (l : Link E) (req : Bytes) (r : Bytes) (hl : l.live = true) (hr : h l.calls req = .reply r) (ho : out ≠ 0)
    (rest : List (Bytes × Luck E)) :
    let x := hedgeCall fatal closed h most k out pick l req
    x.2 = .reply r ∧ (retryCalls p h rest x.1).1.calls = x.1.calls ∧ ∀ g ∈ (retryCalls p h rest x.1).2, ∀ r', g ≠ .reply r' := by
  intro x
  have hx : x = ((Link.hedges h req k { l with calls := l.calls + 1 }).cancel closed, .reply r) := by
    simp only [x, hedgeCall, hl, if_true, hr, if_neg ho]
  have hdead : x.1.live = false := by
    rw [hx]
    show (Link.cancel closed _).live = false
    unfold Link.cancel
    split
    · rfl
    · rename_i hf; simpa using hf
  refine ⟨by rw [hx], ?_⟩
  generalize x.1 = d at hdead
  have hcall : ∀ (u : Luck E) (req : Bytes) (d : Link E), d.live = false →
      (retryCall p h u d req).1.live = false ∧ (retryCall p h u d req).1.calls = d.calls ∧
        ∀ r', (retryCall p h u d req).2 ≠ .reply r' := by
    have hdo : ∀ (d : Link E) pick req r', d.live = false → (d.doCall h pick req).2 ≠ .reply r' := by
      intro d pick req r' hd
      simp only [Link.doCall, hd, Link.ended]
      cases d.note with
      | none => simp
      | some e => cases pick <;> simp
    have hloop : ∀ (u : Luck E) (req : Bytes) left a (d : Link E) r', d.live = false →
        (retryLoop p h u req left a d).2 ≠ .reply r' := by
      intro u req left
      induction left with
      | zero =>
        intro a d r' hd
        unfold retryLoop
        have h1 := hdo d (u.pick a) req r' hd
        generalize d.doCall h (u.pick a) req = y at h1
        obtain ⟨l', g⟩ := y
        cases g with
        | reply r => exact h1
        | panic => simp
        | fail e => dsimp only; split <;> simp
      | succ left ih =>
        intro a d r' hd
        unfold retryLoop
        have h1 := hdo d (u.pick a) req r' hd
        have h2 := doCall_dead h (u.pick a) d req hd
        generalize d.doCall h (u.pick a) req = y at h1 h2
        obtain ⟨l', g⟩ := y
        cases g with
        | reply r => exact h1
        | panic => simp
        | fail e =>
          dsimp only
          split
          · simp
          · split
            · simp
            · exact ih (a + 1) l' r' h2.1
    intro u req d hd
    unfold retryCall
    split
    · exact ⟨(doCall_dead h _ d req hd).1, (doCall_dead h _ d req hd).2, fun r' => hdo d _ req r' hd⟩
    · exact ⟨(retryLoop_dead p h u req _ 0 d hd).1, (retryLoop_dead p h u req _ 0 d hd).2,
        fun r' => hloop u req _ 0 d r' hd⟩
  induction rest generalizing d with
  | nil => exact ⟨rfl, by simp [retryCalls]⟩
  | cons y rest ih =>
    obtain ⟨q, u⟩ := y
    obtain ⟨k1, k2, k3⟩ := hcall u q d hdead
    obtain ⟨i1, i2⟩ := ih _ k1
    refine ⟨i1.trans k2, ?_⟩
    intro g hg r'
    simp only [retryCalls, List.mem_cons] at hg
    rcases hg with rfl | hg
    · exact k3 r'
    · exact i2 g hg r'

/-- **C150, refuted (6): a hedge cannot make up for a failure.** If hedges are configured and the original fails with an
error that is not fatal, the call panics, however the handler would answer the hedges. -/
theorem C150_hedge_panics (fatal : E → Bool) (closed : E) (h : Script E) (most k out : Nat) (pick : Bool) (l : Link E)
    (req : Bytes) (e : E) (hl : l.live = true) (hf : h l.calls req = .fail e) (hk : most ≠ 0) (hn : fatal e = false) :
    (hedgeCall fatal closed h most k out pick l req).2 = .panic := by
  simp [hedgeCall, hl, hf, hk, hn]

/-- **C150, partial (hedging).** If all hedges that were sent are answered with replies before the call returns, the
session stays and the caller has the reply of the original. -/
theorem C150_hedge_partial (fatal : E → Bool) (closed : E) (h : Script E) (most k : Nat) (pick : Bool) (l : Link E)
    (req : Bytes) (r : Bytes) (hl : l.live = true) (hr : h l.calls req = .reply r)
    (hs : ∀ n, l.calls < n → n ≤ l.calls + k → ∃ r, h n req = .reply r) :
    hedgeCall fatal closed h most k 0 pick l req = ({ l with calls := l.calls + 1 + k }, .reply r) := by
  have key : ∀ k (l : Link E), (∀ n, l.calls ≤ n → n < l.calls + k → ∃ r, h n req = .reply r) →
      Link.hedges h req k l = { l with calls := l.calls + k } := by
    intro k
    induction k with
    | zero => intro l _; rfl
    | succ k ih =>
      intro l hs
      obtain ⟨r, hr⟩ := hs l.calls (Nat.le_refl _) (by omega)
      simp only [Link.hedges, hr]
      rw [ih]
      · simp only [Nat.add_assoc, Nat.add_comm 1]
      · intro n h1 h2
        exact hs n (by simp only at h1; omega) (by simp only at h2; omega)
  simp only [hedgeCall, hl, if_true, hr]
  rw [key k _ (fun n h1 h2 => hs n (by simp only at h1; omega) (by simp only at h2; omega))]

/-! ### The hypotheses are met -/

def demoPolicy : Policy Nat := ⟨3, 1, 5, fun x => 2 * x, fun e => e == 14⟩

/-- The first invocation fails with 14, all others succeed. -/
def demoScript : Script Nat := fun n _ => if n = 0 then .fail 14 else .reply [1, 2]

def demoLuck : Luck Nat := ⟨fun _ => true, fun _ => false, 4⟩

example : (retryCall demoPolicy demoScript demoLuck Link.new [7]).2 = .panic :=
  C150_retry_panics demoPolicy demoScript demoLuck Link.new [7] 14 rfl rfl rfl (by decide) rfl

example := C150_reply_not_given demoPolicy 14 rfl (by decide) [1, 2]

/-- Without retries the error is given once, and then all calls panic. -/
example := C150_later_calls_panic { demoPolicy with maxAttempts := 0 } demoPolicy demoScript demoLuck Link.new [7] 14 rfl rfl rfl
  [([7], demoLuck), ([8], demoLuck)]

example := C150_success_partial demoPolicy (fun n _ => .reply [n.toUInt8]) (fun n => [n.toUInt8])
  [([7], demoLuck), ([8], demoLuck)] Link.new rfl (fun _ _ _ => rfl)

/-- The original takes 1000, a hedge sent at 50 would take 1. -/
example : answered 0 [(0, 1000), (50, 1)] = [1000, 1001] := by decide

example := C150_hedge_ends_session (fun _ => false) 99 demoPolicy (fun _ _ => .reply [1]) 2 1 1 true Link.new [7] [1] rfl rfl
  (by decide) [([8], demoLuck)]

example : (hedgeCall (fun _ => false) 99 demoScript 1 0 0 true Link.new [7]).2 = .panic :=
  C150_hedge_panics _ _ _ _ _ _ _ _ _ 14 rfl rfl (by decide) rfl

example := C150_hedge_invocations (fun _ => false) 99 (fun n _ => .reply [n.toUInt8]) 3 2 1 true Link.new [7] rfl
  (fun _ _ _ => ⟨_, rfl⟩)

example := C150_hedge_partial (fun _ => false) 99 (fun n _ => .reply [n.toUInt8]) 3 2 true Link.new [7] [0] rfl rfl
  (fun _ _ _ => ⟨_, rfl⟩)

example := C150_first_final_partial demoPolicy (fun _ _ => .fail 3) demoLuck Link.new [7] rfl (.inr ⟨3, rfl, rfl⟩) rfl

end Claw.Attempts
