import Verif.Lemmas.Server

/-!
# C40, C57, C58: the limits of a server and its shutdown

`run as { max := m, maxRPC := n, allowPacking := b } = some s`: `as` can happen on a fresh server with these options.
-/

namespace Claw.Srv

open Claw SrvConn

theorem reach_inv {as : List Act} {m n : Nat} {b : Bool} {s : Server}
    (h : run as { max := m, maxRPC := n, allowPacking := b } = some s) : Inv s :=
  Inv.run as (Inv.init m n b) h

/-- Every connection of a server behaves as the connection machine of `Model/ServerConn` does, with the options of the
server: the theorems about that machine (C37, C38, C39, C54, C55, C56) hold for it. -/
theorem conn_refines {as : List Act} {m n : Nat} {b : Bool} {s : Server}
    (h : run as { max := m, maxRPC := n, allowPacking := b } = some s) {i : Nat} {c : Conn} (hc : s.objs[i]? = some c) :
    ∃ cs, SrvConn.run cs { allowPacking := b, maxRPC := n } = some c := by
  obtain ⟨cs, h'⟩ := (reach_inv h).reach i c hc
  obtain ⟨_, k2, k3⟩ := run_config as h
  rw [k2, k3] at h'
  exact ⟨cs, h'⟩

/-! ### C40 -/

/-- Calls of `Serve` that were accepted and have not returned. -/
def inProgress (s : Server) : Nat := s.serves.countP fun x => match x with | .serving _ => true | _ => false

/-- Connections whose frames the server reads. -/
def readBy (s : Server) : Nat := s.objs.countP fun c => c.pc ≠ .exited

theorem inProgress_conns {s : Server} (h : Inv s) : inProgress s = s.conns.length := by
  rw [h.serves]
  unfold inProgress
  generalize s.serves = l
  induction l with
  | nil => rfl
  | cons x l ih =>
    rw [List.countP_cons, ih]
    cases x <;> simp [List.filterMap_cons, served]

/-- The indices at which `p` holds, from `n` on. -/
theorem countP_indices (p : α → Bool) : ∀ (l : List α) (n : Nat), ∃ is : List Nat, is.length = l.countP p ∧ is.Nodup ∧
    ∀ i ∈ is, n ≤ i ∧ ∃ a, l[i - n]? = some a ∧ p a = true
  | [], n => ⟨[], rfl, by simp, by simp⟩
  | x :: l, n => by
    obtain ⟨is, h1, h2, h3⟩ := countP_indices p l (n + 1)
    have h3' : ∀ i ∈ is, n ≤ i ∧ ∃ a, (x :: l)[i - n]? = some a ∧ p a = true := by
      intro i hi
      obtain ⟨k1, a, k2, k3⟩ := h3 i hi
      refine ⟨by omega, a, ?_, k3⟩
      have : i - n = (i - (n + 1)) + 1 := by omega
      rw [this, List.getElem?_cons_succ]; exact k2
    cases hp : p x with
    | false => exact ⟨is, by simp [List.countP_cons, hp, h1], h2, h3'⟩
    | true =>
      refine ⟨n :: is, by simp [List.countP_cons, hp, h1], List.nodup_cons.2 ⟨fun hm => ?_, h2⟩, ?_⟩
      · have := (h3 n hm).1; omega
      · intro i hi
        rcases List.mem_cons.1 hi with rfl | hi
        · exact ⟨Nat.le_refl _, x, by simp, hp⟩
        · exact h3' i hi

/-- **C40** A server with a limit of `m > 0` connections never has more than `m` accepted calls of `Serve` in progress
and never reads from more than `m` connections, whatever comes, goes and is shut down in whatever order. -/
theorem C40_limit {as : List Act} {m n : Nat} {b : Bool} {s : Server}
    (h : run as { max := m, maxRPC := n, allowPacking := b } = some s) (hm : 0 < m) :
    inProgress s ≤ m ∧ readBy s ≤ m := by
  have hi := reach_inv h
  have hmax : s.max = m := (run_config as h).1
  have hl : s.conns.length ≤ m := hmax ▸ hi.limit (hmax ▸ hm)
  refine ⟨by rw [inProgress_conns hi]; exact hl, Nat.le_trans ?_ hl⟩
  obtain ⟨is, k1, k2, k3⟩ := countP_indices (fun c : Conn => decide (c.pc ≠ .exited)) s.objs 0
  unfold readBy
  rw [← k1]
  refine k2.length_le_of_subset ?_
  intro i hi'
  obtain ⟨_, c, g1, g2⟩ := k3 i hi'
  exact (hi.there i c (by simpa using g1)).resolve_right (by simpa using g2)

/-- C40, the other direction: a connection is refused for the limit only when `m` calls of `Serve` are in progress. A
server that is not shut down accepts all others. -/
theorem C40_accepts_below {as : List Act} {m n : Nat} {b : Bool} {s s' : Server}
    (h : run as { max := m, maxRPC := n, allowPacking := b } = some s) (e : step s .serve = some s') :
    s'.serves = s.serves ++ [if s.closed then .refusedClosed else
      if 0 < m ∧ m ≤ inProgress s then .refusedFull else .serving s.objs.length] := by
  have hmax : s.max = m := (run_config as h).1
  simp only [step, Option.some.injEq] at e
  subst e
  rw [inProgress_conns (reach_inv h), ← hmax]
  unfold accept
  by_cases hc : s.closed = true
  · simp [hc]
  · rw [if_neg hc, if_neg hc]
    by_cases hf : 0 < s.max ∧ s.max ≤ s.conns.length
    · rw [if_pos hf, if_pos hf]
    · rw [if_neg hf, if_neg hf]

/-- Two connections fit; the third is refused; when the first client has gone the next one is accepted. -/
def busyServer : List Act :=
  [.serve, .serve, .serve, .conn 0 .close, .conn 0 .exit, .serve, .leave 0, .serve]

example : ∃ s, run busyServer { max := 2 } = some s ∧
    s.serves = [.returned, .serving 1, .refusedFull, .refusedFull, .serving 2] ∧ inProgress s = 2 ∧ readBy s = 2 :=
  ⟨_, rfl, by decide, by decide, by decide⟩

/-! ### C57 -/

/-- A handler runs in each of two connections. -/
def twoHandlers : List Act :=
  [.serve, .serve] ++ [0, 1].flatMap fun i =>
    [.conn i (.read (.open 7 true true false)), .conn i .tick, .conn i .tick, .conn i .tick]

/-- C57 holds for each connection, not for the server: with a limit of one handler, two run. -/
theorem C57_limit_per_connection : ∃ as s, run as { maxRPC := 1 } = some s ∧
    (s.objs.flatMap fun c => c.heap.filter fun x => x.h = .running).length = 2 :=
  ⟨twoHandlers, _, rfl, by decide⟩

/-! ### C58 -/

theorem run_closed : ∀ (as : List Act) {s s' : Server}, run as s = some s' → s.closed = true →
    s'.closed = true ∧ s'.objs.length = s.objs.length
  | [], s, s', e, h => by simp [run] at e; subst e; exact ⟨h, rfl⟩
  | a :: as, s, s', e, h => by
    simp only [run, Option.bind_eq_some_iff] at e
    obtain ⟨d, e1, e2⟩ := e
    have : d.closed = true ∧ d.objs.length = s.objs.length := by
      cases a <;> simp only [step] at e1
      case serve =>
        simp only [Option.some.injEq] at e1
        subst e1
        unfold accept
        rw [if_pos h]
        exact ⟨h, rfl⟩
      case shutdown => simp only [Option.some.injEq] at e1; subst e1; exact ⟨rfl, rfl⟩
      all_goals
        repeat' split at e1
      all_goals first
        | (simp at e1; done)
        | (simp only [Option.some.injEq] at e1; subst e1; exact ⟨h, by simp⟩)
        | (simp only [Option.map_eq_some_iff] at e1; obtain ⟨_, _, rfl⟩ := e1; exact ⟨h, by simp⟩)
    obtain ⟨k1, k2⟩ := run_closed as e2 this.1
    exact ⟨k1, k2.trans this.2⟩

/-- **C58** After Shutdown has been called, no connection is accepted. -/
theorem C58_no_new_connections {as : List Act} {m n : Nat} {b : Bool} {s : Server}
    (h : run as { max := m, maxRPC := n, allowPacking := b } = some s) (hs : s.shuts ≠ []) {bs : List Act} {s' : Server}
    (e : run bs s = some s') : s'.objs.length = s.objs.length :=
  (run_closed bs e ((reach_inv h).down hs)).2

/-- C58: when Shutdown has returned, with or without an error, all connections it found are closed. -/
theorem C58_all_closed {as : List Act} {m n : Nat} {b : Bool} {s : Server}
    (h : run as { max := m, maxRPC := n, allowPacking := b } = some s) {x : Shut} (hx : x ∈ s.shuts)
    (hp : x.pc = .ok ∨ x.pc = .failed ∨ x.pc = .ctxDone) :
    ∀ i ∈ x.snap, ∃ c, s.objs[i]? = some c ∧ c.closed = true := by
  obtain ⟨_, _, _, h4⟩ := (reach_inv h).shut x hx
  intro i hi
  rcases hp with hp | hp | hp <;> simp only [hp] at h4
  · obtain ⟨c, g, k1, _, k3⟩ := h4 i hi
    exact ⟨c, k1, k3⟩
  · exact h4 i hi
  · exact h4 i hi

/-- C58: when Shutdown has returned nil, every connection it found has no handler any more, unless the connection was
already closed when Shutdown came to it (one of its graceful closes returned early). Missing: connections closed
before, see `C58_shutdown_leaves_handlers`. -/
theorem C58_handlers_done_partial {as : List Act} {m n : Nat} {b : Bool} {s : Server}
    (h : run as { max := m, maxRPC := n, allowPacking := b } = some s) {x : Shut} (hx : x ∈ s.shuts) (hp : x.pc = .ok) :
    ∀ i ∈ x.snap, ∃ c, s.objs[i]? = some c ∧ (GPc.early ∈ c.gs ∨ ∀ t ∈ c.heap, t.h = .done) := by
  obtain ⟨_, _, _, h4⟩ := (reach_inv h).shut x hx
  simp only [hp] at h4
  intro i hi
  obtain ⟨c, g, k1, k2, _⟩ := h4 i hi
  obtain ⟨cs, hr⟩ := conn_refines h k1
  exact ⟨c, k1, k2.imp List.mem_of_getElem? fun hg => C39_success_means_done_partial hr (List.mem_of_getElem? hg)⟩

/-- Shutdown with a handler running in one connection: it returns nil after the handler has finished. -/
def goodShutdown : List Act :=
  [.serve, .conn 0 (.read (.open 7 true true false)), .conn 0 .tick, .conn 0 .tick, .conn 0 .tick, .shutdown, .serve,
   .grace 0 0, .conn 0 (.drain 0), .conn 0 (.ret 0), .conn 0 (.ret 0), .conn 0 (.ret 0), .conn 0 (.ret 0),
   .conn 0 (.drain 0), .allDone 0]

example : ∃ s, run goodShutdown {} = some s ∧ s.shuts = [⟨[0], [], [(0, 0)], .ok⟩] ∧
    s.serves = [.serving 0, .refusedClosed] ∧ s.objs.map (fun c => (c.closed, c.heap.map (·.h), c.gs)) = [(true, [.done], [.finished])] :=
  ⟨_, rfl, by decide, by decide, by decide⟩

/-- A client opens a session and goes away while the handler works; then the server is shut down. -/
def clientGone : List Act :=
  [.serve, .conn 0 (.read (.open 7 true true false)), .conn 0 .tick, .conn 0 .tick, .conn 0 .tick, .conn 0 .close,
   .conn 0 .exit, .leave 0, .shutdown]

/-- C58 does not hold for connections that have ended before: their handlers are not waited for. Shutdown returns nil
at once while a handler runs. -/
theorem C58_shutdown_leaves_handlers : ∃ s, run clientGone {} = some s ∧ s.shuts = [⟨[], [], [], .ok⟩] ∧
    s.objs.map (fun c => c.heap.map (·.h)) = [[.running]] := ⟨_, rfl, by decide, by decide⟩

end Claw.Srv
