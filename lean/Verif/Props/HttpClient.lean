import Verif.Lemmas.HttpExec

/-!
# The HTTP client transport (C111, C112, C113)
-/

namespace Claw.HttpClient

open Claw.Transport (upd Tid)

/-! ### C111 Close -/

/-- Whatever was going on, a closed transport stays closed. -/
theorem closed_step {s s' : St} (h : Step s s') (hc : s.closed = true) : s'.closed = true := by
  cases h with
  | run h =>
    cases h with
    | @enter op _ =>
      cases op <;> simp only [St.enter, hc, if_true] <;> exact hc
    | _ => exact hc
  | _ => exact hc

theorem closed_steps {s s' : St} (h : Steps s s') (hc : s.closed = true) : s'.closed = true := by
  induction h with
  | refl => exact hc
  | tail _ hs ih => exact closed_step hs ih

/-- **C111 (a)** From the moment `Close` has marked the transport closed, and in every interleaving:
the context of every request ever sent is done, so the HTTP library gives up its connection, and every
pipe is closed, so no `Write` is left waiting; and this stays so. -/
theorem C111_released (c : Nat) (s s' : St) (h : Reach c s) (hc : s.closed = true)
    (hs : Steps s s') :
    s'.closed = true ∧ (∀ r, r < s'.reqs → s'.live r = false) ∧ (∀ g, g < s'.gens → s'.shut g = true) ∧
      s'.isConnected = false := by
  have hi := reach_inv (Steps.trans h hs)
  have hc' := closed_steps hs hc
  obtain ⟨e1, e2⟩ := hi.closed hc'
  refine ⟨hc', ?_, ?_, by simp [St.isConnected, hc']⟩
  · intro r hr
    have := hi.doneOld _ (hi.reqCtxLt r hr) (by simp [e1])
    simp [St.live, this]
  · intro g hg; exact hi.shutOld g hg (by simp [e2])

/-- **C111 (b)** A call begun on a closed transport ends at once: `Read`, `Write` and `Reconnect` with
`ErrClosed`, `Close` without an error. -/
theorem C111_calls (s s' : St) (t : Tid) (op : Op) (hc : s.closed = true) (hpc : s.pc t = .call op)
    (hr : Run t s s') :
    s'.pc t = .idle ∧ s'.rets t = s.rets t ++ [(op, match op with
      | .close | .query => .ok
      | _ => .errClosed)] := by
  cases hr with
  | @enter op' h =>
    rw [hpc] at h; cases h
    cases op <;> simp [St.enter, hc, St.ret, upd]
  | _ => simp_all

/-- Non-trivial case of (a) and (b): a transport closed while a `Write` waits and a `Reconnect` is in
its `select`. -/
example : ∃ s, Reach 0 s ∧ (s.closed && s.pc 1 == .wWant 0 [1, 2] && s.pc 2 == .kWait 0 1 1) = true :=
  witness 0 (dialActs ++ [.call 1 (.write [1, 2]), .go 1, .call 2 (.connect 0), .go 2, .go 2, .go 2,
    .call 3 .close, .go 3]) _ (by decide +kernel)

/-- Disagreement with C111: `Reconnect` returns no error although `Close` had returned before: the
answer of the server is taken after the transport was closed. -/
theorem C111_reconnect_ok : ∃ s, Reach 0 s ∧
    (s.closed && s.rets 2 == [(.close, .ok)] && s.rets 1 == [] && s.pc 1 == .kSet 0 1) = true ∧
    ∃ s', Steps s s' ∧ s'.rets 1 = [(.connect 0, .ok)] ∧ s'.live 1 = false := by
  obtain ⟨s, h, hp⟩ := witness 0 (dialActs ++ [.call 1 (.connect 0), .go 1, .go 1, .go 1,
    .answer 1 .ok, .call 2 .close, .go 2, .go 1])
    (fun s => s.closed && s.rets 2 == [(.close, .ok)] && s.rets 1 == [] && s.pc 1 == .kSet 0 1)
    (by decide +kernel)
  refine ⟨s, h, hp, ?_⟩
  simp only [Bool.and_eq_true, beq_iff_eq] at hp
  have hl := (C111_released 0 s s h hp.1.1.1 (.refl _)).2.1
  refine ⟨_, .tail (.refl _) (.run (.set hp.2)), ?_, ?_⟩
  · simp [St.ret, upd, hp.1.2]
  · by_cases e : 1 < s.reqs
    · exact hl 1 e
    · simp only [St.ret, St.live]; simp [e]

/-- Disagreement with C111: `Close` between the two parts of `connect` lets the request be sent with the
nil pipe as its body; reading or closing that body dereferences nil, in a goroutine of its own, and ends
the program. -/
theorem C111_nil_body : ∃ s, Reach 0 s ∧
    (s.rets 2 == [(.close, .ok)] && decide (1 < s.reqs) && s.reqBody 1 == none) = true :=
  witness 0 (dialActs ++ [.call 1 (.connect 0), .go 1, .call 2 .close, .go 2, .go 1]) _
    (by decide +kernel)

/-! ### C112 one connection, one stream -/

/-- What the `Write` calls that returned no error put into pipe `g`, one after the other. -/
def written (s : St) (g : Nat) : Bytes := (s.sent.filter fun x => x.1 == g).flatMap (·.2)

/-- **C112 (a)** In every interleaving: what has left a pipe is the messages of the successful `Write`
calls on it, whole and in order, and after them at most a beginning of one more message; and what a
request has sent is part of what has left its pipe, in the same order. -/
theorem C112_pipe (c : Nat) (s : St) (h : Reach c s) (g : Nat) :
    (∃ tail, s.piped g = written s g ++ tail ∧ (tail = [] ∨ ∃ p, p ∈ s.issued ∧ tail <+: p)) ∧
      ∀ r, r < s.reqs → s.reqBody r = some g → (s.carried r).Sublist (s.piped g) :=
  ⟨(reach_inv h).any g, fun r => (reach_inv h).sub r g⟩

/-- **C112 (b)** If no `Reconnect` begins while another is going on, every request has its own pipe, so
the server gets on each connection exactly the messages written to it, whole and in order.
Missing: overlapping `Reconnect` calls, for which it is false (`C112_split`). -/
theorem C112_stream_partial (c : Nat) (s : St) (h : Alone (St.init c) s) (r g : Nat) (hr : r < s.reqs)
    (hb : s.reqBody r = some g) :
    (∃ tail, s.carried r = written s g ++ tail ∧ (tail = [] ∨ ∃ p, p ∈ s.issued ∧ tail <+: p)) ∧
      ∀ r', r' < s.reqs → s.reqBody r' = some g → r' = r := by
  obtain ⟨ho, hi⟩ := alone_own h
  refine ⟨?_, fun r' hr' hb' => ho.bodies r' r g hr' hr hb' hb⟩
  rw [ho.same r g hr hb]
  exact hi.any g

/-- **C112 (c)** Under the same condition a transport that says it is connected has a request that the
server accepted, with the pipe that `Write` uses, and the request is being kept up unless the context
given to `Dial` or `Reconnect` has ended; and no call panics. -/
theorem C112_up_partial (c : Nat) (s : St) (h : Alone (St.init c) s) :
    (s.isConnected = true → ∃ r g, s.resp = some r ∧ s.pipe = some g ∧ s.reqBody r = some g ∧
      (s.ended (s.parent g) = false → s.live r = true)) ∧
    ∀ t x, x ∈ s.rets t → x.2 ≠ .panic := by
  have hu := alone_up h
  have hi := (alone_own h).2
  refine ⟨?_, hu.calm⟩
  intro hc
  simp only [St.isConnected, Bool.and_eq_true, Bool.not_eq_true'] at hc
  obtain ⟨r, g, e1, e2, e3, e4, e5, e6⟩ := hu.up hc.1 hc.2
  refine ⟨r, g, e1, e2, e5, fun he => ?_⟩
  have : s.done g = false := by
    cases hd : s.done g with
    | false => rfl
    | true =>
      rcases hi.doneWhy g (hi.cancelLt g e3) hd with h | h
      · rw [he] at h; cases h
      · exact absurd e3 h
  simp [St.live, e4, e6, this]

/-- Non-trivial case of (b) and (c): two goroutines have written, a third is in the middle of a write. -/
example : ∃ s, Alone (St.init 0) s ∧ (s.isConnected && s.carried 0 == [1, 2, 3, 4] &&
    s.sent == [(0, [1, 2]), (0, [3])] && s.pc 3 == .wPut 0 [4, 5] 1) = true :=
  witness_alone 0 (dialActs ++ [.call 1 (.write [1, 2]), .call 2 (.write [3]), .call 3 (.write [4, 5]),
    .go 3, .go 2, .go 1, .go 1, .take 1 0, .take 1 0, .go 1, .go 2, .take 2 0, .go 2, .go 3, .take 3 0]) _
    (by decide) (by decide +kernel)

/-- Disagreement with C112: of two overlapping `Reconnect` calls both succeed, with two connections that
share one pipe, and a single `Write` is split between the two: one gets the first byte, the other the
second. -/
theorem C112_split : ∃ s, Reach 0 s ∧
    (s.rets 1 == [(.connect 0, .ok)] && s.rets 2 == [(.connect 0, .ok)] &&
      s.rets 3 == [(.write [1, 2], .ok)] && s.live 1 && s.live 2 &&
      s.reqSt 1 == .ok && s.reqSt 2 == .ok && s.carried 1 == [1] && s.carried 2 == [2]) = true :=
  witness 0 (dialActs ++ [.call 1 (.connect 0), .call 2 (.connect 0), .go 1, .go 2, .go 1, .go 2, .go 1,
    .go 2, .answer 1 .ok, .answer 2 .ok, .go 1, .go 1, .go 2, .go 2, .call 3 (.write [1, 2]), .go 3, .go 3,
    .take 3 1, .take 3 2, .go 3]) _ (by decide +kernel)

/-- Disagreement with C112: of two overlapping `Reconnect` calls one is refused by the server and clears
the pipe of the other, which succeeds; the next `Write` dereferences nil. -/
theorem C112_nil_write : ∃ s, Reach 0 s ∧
    (s.rets 2 == [(.connect 0, .ok)] && s.rets 3 == [(.write [1], .panic)]) = true :=
  witness 0 (dialActs ++ [.call 1 (.connect 0), .call 2 (.connect 0), .go 1, .go 2, .go 1, .go 2, .go 1,
    .go 2, .answer 1 .refused, .answer 2 .ok, .go 2, .go 1, .go 1, .go 2, .call 3 (.write [1]), .go 3]) _
    (by decide +kernel)

/-- Disagreement with C112: a `Reconnect` that fails takes down the connection another one has just made
and reported. -/
theorem C112_killed : ∃ s, Reach 0 s ∧
    (s.rets 2 == [(.connect 0, .ok)] && s.rets 1 == [(.connect 0, .err)] && !s.closed &&
      !s.isConnected && !s.live 2) = true :=
  witness 0 (dialActs ++ [.call 1 (.connect 0), .call 2 (.connect 0), .go 1, .go 2, .go 1, .go 2, .go 1,
    .go 2, .answer 1 .refused, .answer 2 .ok, .go 2, .go 2, .go 1, .go 1]) _ (by decide +kernel)

/-- Disagreement with C112: `Reconnect` reports success without a connection, because it returns the error
of whatever context is in the field by then. -/
theorem C112_no_error : ∃ s, Reach 0 s ∧
    (s.rets 1 == [(.connect 0, .ok)] && !s.isConnected && s.reqSt 1 == .pending && !s.live 1) = true :=
  witness 0 (dialActs ++ [.call 1 (.connect 0), .go 1, .go 1, .go 1, .call 2 (.connect 0), .go 2,
    .go 1 true, .go 1, .call 3 (.connect 0), .go 3, .go 1]) _ (by decide +kernel)

/-! ### C113 how long a connection lasts and what is reported -/

/-- **C113 (a)** The context of a request ends only for three reasons: the context its `Dial` or `Reconnect`
was given has ended, a later `connect` (or a failing one) has cleaned up, or `Close`; so the newest
request is kept up as long as its caller's context lasts.
Missing: it should last longer than that (`C113_context_ends`). -/
theorem C113_kept_partial (c : Nat) (s : St) (h : Reach c s) (r g : Nat) (hr : r < s.reqs)
    (hg : s.reqCtx r = g) (hc : s.cancel = some g) (he : s.ended (s.parent g) = false) :
    s.live r = true ∧ s.closed = false := by
  have hi := reach_inv h
  have : s.done g = false := by
    cases hd : s.done g with
    | false => rfl
    | true =>
      rcases hi.doneWhy g (hi.cancelLt g hc) hd with h | h
      · rw [he] at h; cases h
      · exact absurd hc h
  refine ⟨by simp [St.live, hr, hg, this], ?_⟩
  cases hcl : s.closed with
  | false => rfl
  | true => rw [(hi.closed hcl).1] at hc; cases hc

/-- Non-trivial case: after a `Dial` and a `Reconnect` with another context, the first context having
ended. -/
example : ∃ s, Reach 0 s ∧ (s.reqCtx 1 == 1 && s.cancel == some 1 && s.ended 0 && !s.ended (s.parent 1) &&
    s.isConnected) = true :=
  witness 0 (dialActs ++ [.call 1 (.connect 5), .go 1, .go 1, .go 1, .answer 1 .ok, .go 1, .go 1, .over 0]) _
    (by decide +kernel)

/-- Disagreement with C113: when the context given to `Dial` ends after `Dial` has returned (a timeout for
dialling, say) the connection is given up, and the transport still says it is connected. -/
theorem C113_context_ends : ∃ s, Reach 0 s ∧
    (s.rets 0 == [(.connect 0, .ok)] && s.isConnected && !s.connErr && !s.live 0) = true :=
  witness 0 (dialActs ++ [.over 0]) _ (by decide +kernel)

/-- The context of a generation is done once the caller's is. -/
def Below (s : St) : Prop := ∀ g, g < s.gens → s.ended (s.parent g) = true → s.done g = true

theorem below_cleanup {s : St} (h : Below s) : Below s.cleanup := by
  intro g hg he
  simp only [St.cleanup] at hg he ⊢
  rw [mark_true]
  exact .inl (h g hg he)

theorem below_step {s s' : St} (h : Below s) (hs : Step s s') : Below s' := by
  cases hs with
  | call _ _ => exact h
  | run hr =>
    cases hr with
    | @enter op hpc =>
      cases op with
      | connect c =>
        simp only [St.enter]
        split
        · exact h
        · intro g hg he
          simp only [St.newGen, upd] at hg he ⊢
          by_cases e : g = s.cleanup.gens
          · simp only [e, if_true] at he ⊢; exact he
          · simp only [e, if_false] at he ⊢
            exact below_cleanup h g (by omega) he
      | close =>
        simp only [St.enter]
        split
        · exact h
        · exact below_cleanup (s := { s with closed := true }) h
      | read => simp only [St.enter]; (repeat' split) <;> exact h
      | write p => simp only [St.enter]; (repeat' split) <;> exact h
      | query => exact h
    | cleanDone _ => exact below_cleanup (s := s) h
    | cleanFail _ => exact below_cleanup (s := s) h
    | _ => exact h
  | answer _ _ _ => exact h
  | @over c =>
    intro g hg he
    simp only [upd] at hg he ⊢
    by_cases e : s.parent g = c
    · simp [hg, e]
    · simp only [e, if_false] at he
      simp [h g hg he]
  | tick => exact h

/-- Disagreement with C113, in general: once the context that was given to `Dial` or `Reconnect` has ended, no
connection made with it is kept up, in any interleaving. -/
theorem C113_always_given_up (c : Nat) (s : St) (h : Reach c s) (r : Nat) (hr : r < s.reqs)
    (he : s.ended (s.parent (s.reqCtx r)) = true) : s.live r = false := by
  have hb : ∀ a b : St, Steps a b → Below a → Below b := by
    intro a b hs
    induction hs with
    | refl => exact id
    | tail _ h2 ih => exact fun h => below_step (ih h) h2
  have := hb _ _ h (fun g hg => absurd hg (Nat.not_lt_zero g))
  simp [St.live, this _ ((reach_inv h).reqCtxLt r hr) he]

/-- Disagreement with C113: after a failed `Read` (the server has closed the connection) the transport
still says it is connected. -/
theorem C113_connected_after_failure : ∃ s, Reach 0 s ∧
    (s.rets 1 == [(.read, .err)] && s.connErr && s.isConnected) = true :=
  witness 0 (dialActs ++ [.call 1 .read, .go 1, .go 1 true, .go 1]) _ (by decide +kernel)

/-- Disagreement with C113: a `Read` of the old connection that fails late leaves its error as the error of
the new one. -/
theorem C113_old_error : ∃ s, Reach 0 s ∧
    (s.rets 2 == [(.connect 0, .ok)] && s.isConnected && s.live 1 && s.connErr) = true :=
  witness 0 (dialActs ++ [.call 1 .read, .go 1, .call 2 (.connect 0), .go 2, .go 2, .go 2, .answer 1 .ok,
    .go 2, .go 2, .go 1 true, .go 1]) _ (by decide +kernel)

/-- Disagreement with C113: `Dial` has no time limit, whatever `WithDialTimeout` says (the value is stored
and copied, client.go:371, :406, options.go:96-100, but never used): for every time there is a run in
which `Dial` is still waiting for the server. -/
theorem C113_no_timeout (n : Nat) : ∃ s, Reach 0 s ∧ s.now = n ∧ s.pc 0 = .kWait 0 0 0 ∧
    s.handed = false := by
  induction n with
  | zero =>
    obtain ⟨s, h, hp⟩ := witness 0 [.go 0, .go 0, .go 0]
      (fun s => s.now == 0 && s.pc 0 == .kWait 0 0 0 && !s.handed) (by decide +kernel)
    simp only [Bool.and_eq_true, beq_iff_eq, Bool.not_eq_true'] at hp
    exact ⟨s, h, hp.1.1, hp.1.2, hp.2⟩
  | succ n ih =>
    obtain ⟨s, h, h1, h2, h3⟩ := ih
    exact ⟨_, .tail h .tick, by simp [h1], h2, h3⟩

end Claw.HttpClient
