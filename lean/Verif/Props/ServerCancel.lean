import Verif.Props.ServerConn

/-!
# C59, C61: what one call or one session does to the others on a connection
-/

namespace Claw.SrvConn

set_option linter.unusedSimpArgs false

/-! ### C59 -/

/-- What a Cancel of session `sid` does. The frame carries the identifier of the call to cancel too, but the server does not look
at it. -/
theorem cancel_run {as : List Act} {b : Bool} {n : Nat} {c : Conn} (h : run as { allowPacking := b, maxRPC := n } = some c)
    (hp : c.pc = .idle) {sid : UInt32} {i : Nat} (hl : lookup c.sessions sid = some i) :
    ∃ s, c.heap[i]? = some s ∧ s.id = sid ∧ s.recvClosed = false ∧
      run [.read (.cancel sid), .tick, .tick] c = some { c with
        sessions := remove c.sessions sid
        heap := c.heap.set i { s with cancelClosed := true, recvClosed := true } } := by
  have hinv := reach_inv h
  obtain ⟨s, h1, h2, h3⟩ := hinv.objs _ (lookup_mem hl)
  have h3 := h3 (by simp [hp])
  refine ⟨s, h1, h2, h3, ?_⟩
  have hi := (List.getElem?_eq_some_iff.1 h1).1
  dsimp only at h1 hi
  have hset : ∀ x, (c.heap.set i x)[i]? = some x := fun x => List.getElem?_set_self hi
  simp only [run, step, hinv.nocrash, hp, read, hl, tick, closeCancel, closeRecv, h1, hset, h3, if_true, Bool.false_eq_true,
    if_false, Option.bind_some, List.set_set]

/-- **C59** fails: cancelling one call ends the whole session. A client has calls in progress on a session and cancels one
of them; then the channels of the session are closed, which is how its handler is told to stop, and no payload of any
other call reaches the handler any more. -/
theorem C59_cancel_ends_session {as : List Act} {b : Bool} {n : Nat} {c : Conn}
    (h : run as { allowPacking := b, maxRPC := n } = some c) (hp : c.pc = .idle) {sid : UInt32} {i : Nat}
    (hl : lookup c.sessions sid = some i) : ∃ c' s s', run [.read (.cancel sid), .tick, .tick] c = some c' ∧
      c.heap[i]? = some s ∧ c'.heap[i]? = some s' ∧ s'.recvClosed = true ∧ s'.cancelClosed = true ∧
      ∀ bs c'', run bs c' = some c'' → ∃ s'', c''.heap[i]? = some s'' ∧ s''.got ++ s''.queue = s.got ++ s.queue := by
  obtain ⟨s, h1, h2, h3, e⟩ := cancel_run h hp hl
  have hi := (List.getElem?_eq_some_iff.1 h1).1
  refine ⟨_, s, { s with cancelClosed := true, recvClosed := true }, e, h1, by simp [hi], rfl, rfl, ?_⟩
  have key : ∀ (bs pre : List Act) (d d' : Conn) (t : Sess), run pre { allowPacking := b, maxRPC := n } = some d → d.heap[i]? = some t →
      t.recvClosed = true → run bs d = some d' → ∃ s'', d'.heap[i]? = some s'' ∧ s''.got ++ s''.queue = t.got ++ t.queue := by
    intro bs
    induction bs with
    | nil => intro pre d d' t _ ht _ e; simp [run] at e; subst e; exact ⟨t, ht, rfl⟩
    | cons a bs ih =>
      intro pre d d' t hd ht hr e
      simp only [run, Option.bind_eq_some_iff] at e
      obtain ⟨f, e1, e2⟩ := e
      obtain ⟨t', k1, k2, k3⟩ := C37_closed_is_final hd e1 ht hr
      obtain ⟨s'', g1, g2⟩ := ih (pre ++ [a]) f d' t' (by rw [run_append, hd]; simp [run, e1]) k1 k2 e2
      exact ⟨s'', g1, g2.trans k3⟩
  intro bs c'' e2
  exact key bs (as ++ [.read (.cancel sid), .tick, .tick]) _ c'' { s with cancelClosed := true, recvClosed := true }
    (by rw [run_append, h]; exact e) (List.getElem?_set_self hi) rfl e2

/-- C59, what holds: other sessions are left alone. Missing: the other calls of the same session. -/
theorem C59_other_sessions_partial {as : List Act} {b : Bool} {n : Nat} {c : Conn}
    (h : run as { allowPacking := b, maxRPC := n } = some c) (hp : c.pc = .idle) (sid : UInt32) :
    ∃ c', (run [.read (.cancel sid), .tick, .tick] c = some c' ∨ step c (.read (.cancel sid)) = some c') ∧
      c'.pc = .idle ∧ c'.crashed = false ∧ (∀ sid', sid' ≠ sid → lookup c'.sessions sid' = lookup c.sessions sid') ∧
      ∀ (j : Nat) s, c.heap[j]? = some s → s.id ≠ sid → c'.heap[j]? = some s := by
  cases hl : lookup c.sessions sid with
  | none =>
    refine ⟨c, .inr ?_, hp, (reach_inv h).nocrash, fun _ _ => rfl, fun _ _ h _ => h⟩
    simp [step, (reach_inv h).nocrash, hp, read, hl]
  | some i =>
    obtain ⟨s, h1, h2, h3, e⟩ := cancel_run h hp hl
    refine ⟨_, .inl e, hp, (reach_inv h).nocrash, ?_, ?_⟩
    · intro sid' hne
      unfold lookup remove
      rw [List.find?_filter]
      congr 2
      funext x
      by_cases hx : x.1 = sid' <;> simp [hx, hne]
    · intro j t ht hne
      have : i ≠ j := by
        rintro rfl
        rw [h1] at ht
        cases ht
        exact hne h2
      simp only
      rw [List.getElem?_set_ne this]
      exact ht

/-- Two sessions with a payload each. -/
def pairOpen : List Act :=
  [.read (.open 0 true true false), .tick, .tick, .tick, .read (.open 1 true true false), .tick, .tick, .tick,
   .read (.payload 1 ⟨0, [1]⟩ false), .tick, .read (.payload 2 ⟨0, [2]⟩ false), .tick]

example : ∃ c, run pairOpen { allowPacking := false, maxRPC := 0 } = some c ∧ c.pc = .idle ∧
    lookup c.sessions 1 = some 0 ∧ (∃ s, c.heap[1]? = some s ∧ s.id ≠ 1 ∧ s.queue = [⟨0, [2]⟩]) :=
  ⟨_, rfl, by decide, by decide, _, rfl, by decide, by decide⟩

/-! ### C61 -/

/-- The read loop waits to put `p` into the full channel of session `i`. -/
structure Blocked (i : Nat) (p : Pl) (c : Conn) : Prop where
  pc : c.pc = .sending i p
  sess : ∃ s, c.heap[i]? = some s ∧ s.queue.length = 16 ∧ s.cancelClosed = false ∧ s.recvClosed = false

/-- What ends the wait: the handler takes a payload or returns, or the connection is closed. -/
def frees (i : Nat) : Act → Bool
  | .recv j => i = j
  | .ret j => i = j
  | .close | .drain _ | .timeout _ => true
  | _ => false

theorem Blocked.step {i : Nat} {p : Pl} {c c' : Conn} {a : Act} (h : Blocked i p c) (ha : frees i a = false)
    (e : step c a = some c') : Blocked i p c' := by
  obtain ⟨s, h1, h2, h3, h4⟩ := h.sess
  have hpc := h.pc
  have setj : ∀ (j : Nat) (t : Sess), i ≠ j → ∃ s, (c.heap.set j t)[i]? = some s ∧ s.queue.length = 16 ∧
      s.cancelClosed = false ∧ s.recvClosed = false := by
    intro j t hij
    exact ⟨s, by rw [List.getElem?_set_ne (Ne.symm hij)]; exact h1, h2, h3, h4⟩
  have hsend : ∀ m, (send c m).pc = c.pc ∧ (send c m).heap = c.heap := by
    intro m; obtain ⟨o, eo⟩ := send_frame c m; rw [eo]; exact ⟨rfl, rfl⟩
  unfold SrvConn.step at e
  split at e
  · simp at e
  cases a with
  | read f => simp [hpc] at e
  | tick => simp [tick, hpc, h1, h2, h4] at e
  | giveUp => simp [hpc, h1, h3] at e
  | exit => simp [hpc] at e
  | close => simp [frees] at ha
  | drain k => simp [frees] at ha
  | timeout k => simp [frees] at ha
  | recv j =>
    have hij : i ≠ j := by simpa [frees] using ha
    dsimp only at e
    repeat' split at e
    all_goals try (simp at e; done)
    simp only [Option.some.injEq] at e
    subst e
    exact ⟨hpc, setj j _ hij⟩
  | reply j q =>
    dsimp only at e
    repeat' split at e
    all_goals try (simp at e; done)
    simp only [Option.some.injEq] at e
    subst e
    refine ⟨(hsend _).1.trans hpc, ?_⟩
    rw [(hsend _).2]
    exact h.sess
  | ret j =>
    have hij : i ≠ j := by simpa [frees] using ha
    dsimp only [ret] at e
    repeat' split at e
    all_goals try (simp at e; done)
    all_goals
      simp only [Option.some.injEq] at e
      subst e
    all_goals first
      | exact ⟨hpc, setj j _ hij⟩
      | exact ⟨(hsend _).1.trans hpc, setj j _ hij⟩
      | exact ⟨hpc, h.sess⟩
  | graceful =>
    dsimp only at e
    split at e <;> simp only [Option.some.injEq] at e <;> subst e <;> exact ⟨hpc, h.sess⟩

/-- **C61** fails: a session whose handler does not take its payloads holds up the whole connection. With 16 payloads in
its channel and one more sent, no frame of any session is read until that handler takes a payload or returns or the
connection is closed; what other handlers do does not help. -/
theorem C61_slow_handler_blocks {i : Nat} {p : Pl} {c : Conn} (h : Blocked i p c) :
    ∀ (bs : List Act) {c' : Conn}, (∀ a ∈ bs, frees i a = false) → run bs c = some c' → ∀ f, step c' (.read f) = none := by
  have key : ∀ (bs : List Act) (c c' : Conn), Blocked i p c → (∀ a ∈ bs, frees i a = false) → run bs c = some c' → Blocked i p c' := by
    intro bs
    induction bs with
    | nil => intro c c' h _ e; simp [run] at e; exact e ▸ h
    | cons a bs ih =>
      intro c c' h ha e
      simp only [run, Option.bind_eq_some_iff] at e
      obtain ⟨d, e1, e2⟩ := e
      exact ih d c' (h.step (ha a (by simp)) e1) (fun x hx => ha x (by simp [hx])) e2
  intro bs c' ha e f
  have := (key bs c c' h ha e).pc
  unfold step
  split
  · rfl
  · simp [this]

/-- Session 1 with a handler that takes nothing, session 2, and 17 payloads for session 1. -/
def flooded : List Act :=
  [.read (.open 0 true true false), .tick, .tick, .tick, .read (.open 1 true true false), .tick, .tick, .tick] ++
  (List.replicate 16 [Act.read (.payload 1 ⟨0, [1]⟩ false), .tick]).flatten ++ [.read (.payload 1 ⟨0, [1]⟩ false)]

example : ∃ c, run flooded {} = some c ∧ Blocked 0 ⟨0, [1]⟩ c ∧ ∃ s, c.heap[1]? = some s ∧ s.h = .running :=
  ⟨_, rfl, ⟨rfl, _, rfl, rfl, rfl, rfl⟩, _, rfl, rfl⟩

/-- C61, what holds: as long as the channel has room, the read loop goes on at once, without any handler. -/
theorem C61_room_goes_on_partial {as : List Act} {b : Bool} {n : Nat} {c : Conn}
    (h : run as { allowPacking := b, maxRPC := n } = some c) {i : Nat} {p : Pl} (hp : c.pc = .sending i p) {s : Sess}
    (hs : c.heap[i]? = some s) (hq : s.queue.length < 16) : ∃ c' s', step c .tick = some c' ∧ c'.pc = .idle ∧
      c'.heap[i]? = some s' ∧ s'.queue = s.queue ++ [p] := by
  have hinv := reach_inv h
  have hi := (List.getElem?_eq_some_iff.1 hs).1
  have hpk := hinv.pcok
  unfold PcOk at hpk
  rw [hp] at hpk
  obtain ⟨t, k1, k2⟩ := hpk
  rw [hs] at k1
  cases k1
  refine ⟨{ c with heap := c.heap.set i { s with queue := s.queue ++ [p] }, pc := .idle }, _, ?_, rfl,
    List.getElem?_set_self hi, rfl⟩
  simp [step, hinv.nocrash, tick, hp, hs, k2, hq]

example : ∃ c s, run [.read (.open 0 true true false), .tick, .tick, .tick, .read (.payload 1 ⟨0, [1]⟩ false)]
    { allowPacking := false, maxRPC := 0 } = some c ∧ c.pc = .sending 0 ⟨0, [1]⟩ ∧ c.heap[0]? = some s ∧ s.queue.length < 16 :=
  ⟨_, _, rfl, rfl, rfl, by decide⟩

end Claw.SrvConn
