import Verif.Model.Packing
import Verif.Lemmas.ClientSteps

/-!
# What the ends of a connection write
-/

namespace Claw.CliConn

open Claw.SrvConn (lookup remove lookup_mem mem_remove mem_insert)

set_option linter.unusedSimpArgs false

/-- A step of the client changes neither form nor wish, and what it writes has the right form. -/
structure Wrote (c : Conn) (a : Act) (c' : Conn) : Prop where
  packing : c'.packing = c.packing
  use : c'.usePacking = c.usePacking
  neg : c'.negotiated = c.negotiated
  out : ∃ l, c'.out = c.out ++ l ∧ ∀ x ∈ l,
    (∃ o i, x = (.open o c.usePacking, false) ∧ a = .sendOpen i ∧ c.openers[i]? = some .registered) ∨
    (x.2 = c.packing ∧ (∀ o pk, x.1 ≠ .open o pk))
  openers : ((a = .open ∧ c'.openers = c.openers ++ [.registered]) ∨ ∃ i w, w ≠ .registered ∧ c'.openers = c.openers.set i w) ∨
    c'.openers = c.openers

theorem Wrote.same {c : Conn} {a : Act} : Wrote c a c := ⟨rfl, rfl, rfl, ⟨[], by simp⟩, .inr rfl⟩

theorem Wrote.of {c d : Conn} {a : Act} (h1 : d.packing = c.packing) (h2 : d.usePacking = c.usePacking) (h3 : d.negotiated = c.negotiated)
    (h4 : d.out = c.out) (h5 : d.openers = c.openers) : Wrote c a d := ⟨h1, h2, h3, ⟨[], by simp [h4]⟩, .inr h5⟩

theorem Wrote.send {c d : Conn} {a : Act} {m : Sent} (h1 : d.packing = c.packing) (h2 : d.usePacking = c.usePacking)
    (h3 : d.negotiated = c.negotiated) (h4 : d.out = c.out) (h5 : d.openers = c.openers) (hm : ∀ o pk, m ≠ .open o pk) :
    Wrote c a (send d m) := by
  unfold CliConn.send
  split
  · exact ⟨h1, h2, h3, ⟨[], by simp [h4]⟩, .inr h5⟩
  · refine ⟨h1, h2, h3, ⟨_, by dsimp only; rw [h4], ?_⟩, .inr h5⟩
    intro x hx
    simp only [List.mem_singleton] at hx
    subst hx
    right
    refine ⟨?_, hm⟩
    cases m <;> first
      | exact h1
      | exact absurd rfl (hm _ _)

theorem Wrote.close {c d : Conn} {a : Act} (h1 : d.packing = c.packing) (h2 : d.usePacking = c.usePacking) (h3 : d.negotiated = c.negotiated)
    (h4 : d.out = c.out) (h5 : d.openers = c.openers) : Wrote c a (closeConn d) := by
  obtain ⟨heap, e, _⟩ := closeConn_cancels d
  rw [e]
  exact .of h1 h2 h3 h4 h5

theorem closeRecv_out (c : Conn) (i : Nat) : ∃ heap cr, closeRecv c i = { c with heap := heap, crashed := cr } := by
  unfold closeRecv
  repeat' split
  · exact ⟨c.heap, c.crashed, rfl⟩
  · exact ⟨c.heap, true, rfl⟩
  · exact ⟨_, c.crashed, rfl⟩

theorem exit_out (c : Conn) : ∃ heap cr, exit c = { c with pc := .exited, heap := heap, crashed := cr } := by
  have : ∀ (l : List (UInt32 × Nat)) (c : Conn), ∃ heap cr, l.foldl (fun c e => closeRecv c e.2) c = { c with heap := heap, crashed := cr } := by
    intro l
    induction l with
    | nil => intro c; exact ⟨c.heap, c.crashed, rfl⟩
    | cons e l ih =>
      intro c
      obtain ⟨h1, r1, e1⟩ := closeRecv_out c e.2
      obtain ⟨h2, r2, e2⟩ := ih (closeRecv c e.2)
      rw [List.foldl_cons, e2, e1]
      exact ⟨h2, r2, rfl⟩
  obtain ⟨h, r, e⟩ := this c.sessions { c with pc := .exited }
  exact ⟨h, r, e⟩

theorem wrote_step {c c' : Conn} {a : Act} (e : step c a = some c') (hr : ∀ f, a ≠ .read f) : Wrote c a c' := by
  unfold step at e
  split at e
  · simp at e
  cases a with
  | read f => exact absurd rfl (hr f)
  | tick =>
    dsimp only [tick] at e
    repeat' split at e
    all_goals try (simp at e; done)
    all_goals
      simp only [Option.some.injEq] at e
      subst e
    all_goals try exact .of rfl rfl rfl rfl rfl
    rename_i j _
    obtain ⟨h, r, e⟩ := closeRecv_out c j
    rw [e]
    exact .of rfl rfl rfl rfl rfl
  | exit =>
    dsimp only at e
    split at e <;> simp only [Option.some.injEq, reduceCtorEq] at e
    obtain ⟨h, r, e1⟩ := exit_out c
    rw [← e, e1]
    exact .of rfl rfl rfl rfl rfl
  | recv j => obtain ⟨t, t', h1, h2, h3, rfl⟩ := onSess_cases e; exact .of rfl rfl rfl rfl rfl
  | iterCancel j => obtain ⟨t, t', h1, h2, h3, rfl⟩ := onSess_cases e; exact .of rfl rfl rfl rfl rfl
  | iterTick j => obtain ⟨t, t', h1, h2, h3, rfl⟩ := onSess_cases e; exact .of rfl rfl rfl rfl rfl
  | «open» =>
    dsimp only at e
    repeat' split at e
    all_goals
      simp only [Option.some.injEq] at e
      subst e
    · exact .same
    · exact .same
    · exact ⟨rfl, rfl, rfl, ⟨[], by simp⟩, .inl (.inl ⟨rfl, rfl⟩)⟩
  | sendOpen i =>
    dsimp only at e
    split at e <;> try (simp at e; done)
    rename_i s ho hs
    split at e
    · simp only [Option.some.injEq] at e
      subst e
      exact ⟨rfl, rfl, rfl, ⟨[], by simp⟩, .inl (.inr ⟨i, .gaveUp, by simp, rfl⟩)⟩
    · rename_i hc
      simp only [Option.some.injEq] at e
      subst e
      have hs : CliConn.send c (.open s.openID c.usePacking) = { c with out := c.out ++ [(.open s.openID c.usePacking, false)] } := by
        unfold CliConn.send
        rw [if_neg hc]
      rw [hs]
      refine ⟨rfl, rfl, rfl, ⟨_, rfl, ?_⟩, .inl (.inr ⟨i, .waiting, by simp, rfl⟩)⟩
      intro x hx
      simp only [List.mem_singleton] at hx
      exact .inl ⟨_, i, hx, rfl, ho⟩
  | closeSess j =>
    dsimp only at e
    split at e <;> simp only [Option.some.injEq, reduceCtorEq] at e
    subst e
    obtain ⟨heap, e1, _⟩ := closeCancel_cancels c j
    rw [e1]
    exact .send rfl rfl rfl rfl rfl (by simp)
  | _ =>
    dsimp only at e
    repeat' split at e
    all_goals try (simp at e; done)
    all_goals
      simp only [Option.some.injEq] at e
      subst e
    all_goals first
      | exact .of rfl rfl rfl rfl rfl
      | exact .send rfl rfl rfl rfl rfl (by simp)
      | exact .close rfl rfl rfl rfl rfl
      | exact ⟨rfl, rfl, rfl, ⟨[], by simp⟩, .inl (.inr ⟨_, _, by simp, rfl⟩)⟩
      | exact ⟨rfl, rfl, rfl, ⟨[], by simp⟩, .inl (.inr ⟨_, _, by split <;> simp, rfl⟩)⟩

/-- A frame read by the client writes nothing; only an OpenAck can change the form. -/
theorem read_forms (c : Conn) (f : Frame) : (read c f).out = c.out ∧ (read c f).usePacking = c.usePacking ∧
    (read c f).openers = c.openers ∧
    (((read c f).packing = c.packing ∧ (read c f).negotiated = c.negotiated) ∨
      ∃ o sid pk, f = .ack o sid true pk ∧ (read c f).negotiated = true ∧
        (read c f).packing = if c.negotiated then c.packing else c.usePacking && pk) := by
  have hcd : ∀ c : Conn, ∃ d, checkDrained c = { c with drained := d } := by
    intro c
    rcases checkDrained_frame c with e | ⟨e, _⟩
    · exact ⟨c.drained, e⟩
    · exact ⟨_, e⟩
  cases f with
  | ack o sid ok pk =>
    show (handleAck c o sid ok pk).out = _ ∧ (handleAck c o sid ok pk).usePacking = _ ∧ (handleAck c o sid ok pk).openers = _ ∧ _
    unfold read handleAck
    dsimp only
    split
    · exact ⟨rfl, rfl, rfl, .inl ⟨rfl, rfl⟩⟩
    split
    · exact ⟨rfl, rfl, rfl, .inl ⟨rfl, rfl⟩⟩
    split
    · exact ⟨rfl, rfl, rfl, .inl ⟨rfl, rfl⟩⟩
    split
    · obtain ⟨d, ed⟩ := hcd { c with pending := remove c.pending o }
      rw [ed]
      exact ⟨rfl, rfl, rfl, .inl ⟨rfl, rfl⟩⟩
    · rename_i hok
      have hok : ok = true := by simpa using hok
      subst hok
      exact ⟨rfl, rfl, rfl, .inr ⟨o, sid, pk, rfl, rfl, rfl⟩⟩
  | close sid code =>
    unfold read
    dsimp only
    split
    · exact ⟨rfl, rfl, rfl, .inl ⟨rfl, rfl⟩⟩
    · obtain ⟨d, ed⟩ := hcd { c with sessions := remove c.sessions sid }
      rw [ed]
      exact ⟨rfl, rfl, rfl, .inl ⟨rfl, rfl⟩⟩
  | payload sid p d =>
    unfold read
    dsimp only
    repeat' split
    all_goals exact ⟨rfl, rfl, rfl, .inl ⟨rfl, rfl⟩⟩
  | goAway =>
    obtain ⟨heap, e, _⟩ := closeConn_cancels c
    show (closeConn c).out = _ ∧ (closeConn c).usePacking = _ ∧ (closeConn c).openers = _ ∧ (((closeConn c).packing = _ ∧ (closeConn c).negotiated = _) ∨ _)
    rw [e]
    exact ⟨rfl, rfl, rfl, .inl ⟨rfl, rfl⟩⟩
  | other => exact ⟨rfl, rfl, rfl, .inl ⟨rfl, rfl⟩⟩

end Claw.CliConn

namespace Claw.SrvConn

set_option linter.unusedSimpArgs false

/-- What a step of the server other than the making of a session writes. -/
structure Wrote (c : Conn) (a : Act) (c' : Conn) : Prop where
  packing : c'.packing = c.packing
  allow : c'.allowPacking = c.allowPacking
  out : ∃ l, c'.out = c.out ++ l ∧ ∀ x ∈ l,
    (∃ o, x = (.ack o 0 false false, false) ∧ a = .tick ∧ c.pc = .rejecting o) ∨
    (∃ o i, ∃ s : Sess, x = (.ack o s.id true c.packing, false) ∧ a = .tick ∧ c.pc = .acking o i) ∨
    (x.2 = c.packing ∧ ∀ o sid ok pk, x.1 ≠ .ack o sid ok pk)
  pc : c'.pc = c.pc ∨ (∃ o i, c.pc = .acking o i ∧ c'.pc = .submitting i) ∨ c'.pc = .idle ∨ c'.pc = .exited ∨ ∃ i, c'.pc = .cancelled i

theorem Wrote.of {c d : Conn} {a : Act} (h1 : d.packing = c.packing) (h2 : d.allowPacking = c.allowPacking)
    (h4 : d.out = c.out)
    (h5 : d.pc = c.pc ∨ (∃ o i, c.pc = .acking o i ∧ d.pc = .submitting i) ∨ d.pc = .idle ∨ d.pc = .exited ∨ ∃ i, d.pc = .cancelled i) :
    Wrote c a d := ⟨h1, h2, ⟨[], by simp [h4]⟩, h5⟩

theorem closeCancel_out (c : Conn) (i : Nat) : ∃ heap, closeCancel c i = { c with heap := heap } := by
  unfold closeCancel
  split
  · exact ⟨c.heap, rfl⟩
  · exact ⟨_, rfl⟩

theorem closeConn_out (c : Conn) : ∃ heap, closeConn c = { c with closed := true, heap := heap } := by
  have : ∀ (l : List (UInt32 × Nat)) (c : Conn), ∃ heap, l.foldl (fun c e => closeCancel c e.2) c = { c with heap := heap } := by
    intro l
    induction l with
    | nil => intro c; exact ⟨c.heap, rfl⟩
    | cons e l ih =>
      intro c
      obtain ⟨h1, e1⟩ := closeCancel_out c e.2
      obtain ⟨h2, e2⟩ := ih (closeCancel c e.2)
      rw [List.foldl_cons, e2, e1]
      exact ⟨h2, rfl⟩
  unfold closeConn
  split
  · rename_i h
    exact ⟨c.heap, by cases c; simp_all⟩
  · obtain ⟨h, e⟩ := this c.sessions { c with closed := true }
    exact ⟨h, e⟩

theorem closeRecv_out (c : Conn) (i : Nat) : ∃ heap cr, closeRecv c i = { c with heap := heap, crashed := cr } := by
  unfold closeRecv
  repeat' split
  · exact ⟨c.heap, c.crashed, rfl⟩
  · exact ⟨c.heap, true, rfl⟩
  · exact ⟨_, c.crashed, rfl⟩

theorem exit_out (c : Conn) : ∃ heap cr, exit c = { c with pc := .exited, heap := heap, crashed := cr } := by
  have : ∀ (l : List (UInt32 × Nat)) (c : Conn), ∃ heap cr, l.foldl (fun c e => closeRecv c e.2) c = { c with heap := heap, crashed := cr } := by
    intro l
    induction l with
    | nil => intro c; exact ⟨c.heap, c.crashed, rfl⟩
    | cons e l ih =>
      intro c
      obtain ⟨h1, r1, e1⟩ := closeRecv_out c e.2
      obtain ⟨h2, r2, e2⟩ := ih (closeRecv c e.2)
      rw [List.foldl_cons, e2, e1]
      exact ⟨h2, r2, rfl⟩
  obtain ⟨h, r, e⟩ := this c.sessions { c with pc := .exited }
  exact ⟨h, r, e⟩

theorem send_wrote (c : Conn) (m : Sent) : ∃ l, send c m = { c with out := c.out ++ l } ∧ ∀ x ∈ l, x.1 = m ∧ 
    x.2 = match m with | .ack .. => false | _ => c.packing := by
  unfold send
  split
  · exact ⟨[], by simp, by simp⟩
  · exact ⟨_, rfl, by intro x hx; simp only [List.mem_singleton] at hx; subst hx; exact ⟨rfl, by cases m <;> rfl⟩⟩

theorem wrote_step {c c' : Conn} {a : Act} (e : step c a = some c') (hr : ∀ f, a ≠ .read f)
    (hc : ∀ o pk, c.pc = .creating o pk → a ≠ .tick) : Wrote c a c' := by
  unfold step at e
  split at e
  · simp at e
  cases a with
  | read f => exact absurd rfl (hr f)
  | tick =>
    dsimp only [tick] at e
    split at e
    · simp at e
    · simp at e
    · rename_i o hp
      simp only [Option.some.injEq] at e
      subst e
      obtain ⟨l, e1, e2⟩ := send_wrote c (.ack o 0 false false)
      rw [e1]
      refine ⟨rfl, rfl, ⟨l, rfl, ?_⟩, .inr (.inr (.inl rfl))⟩
      intro x hx
      obtain ⟨k1, k2⟩ := e2 x hx
      exact .inl ⟨o, by cases x; simp_all, rfl, hp⟩
    · rename_i o pk hp
      exact absurd rfl (hc o pk hp)
    · rename_i o i hp
      split at e <;> simp only [Option.some.injEq, reduceCtorEq] at e
      rename_i s hs
      subst e
      obtain ⟨l, e1, e2⟩ := send_wrote c (.ack o s.id true c.packing)
      rw [e1]
      refine ⟨rfl, rfl, ⟨l, rfl, ?_⟩, .inr (.inl ⟨o, i, hp, rfl⟩)⟩
      intro x hx
      obtain ⟨k1, k2⟩ := e2 x hx
      exact .inr (.inl ⟨o, i, s, by cases x; simp_all, rfl, hp⟩)
    · repeat' split at e
      all_goals try (simp at e; done)
      simp only [Option.some.injEq] at e
      subst e
      exact .of rfl rfl rfl (.inr (.inr (.inl rfl)))
    · repeat' split at e
      all_goals try (simp at e; done)
      all_goals
        simp only [Option.some.injEq] at e
        subst e
      · exact .of rfl rfl rfl (.inl rfl)
      · exact .of rfl rfl rfl (.inr (.inr (.inl rfl)))
    · rename_i i hp
      simp only [Option.some.injEq] at e
      subst e
      obtain ⟨h, r, e⟩ := closeRecv_out c i
      rw [e]
      exact .of rfl rfl rfl (.inr (.inr (.inl rfl)))
    · rename_i i hp
      simp only [Option.some.injEq] at e
      subst e
      obtain ⟨h, e⟩ := closeCancel_out c i
      rw [e]
      exact .of rfl rfl rfl (.inr (.inr (.inr (.inr ⟨i, rfl⟩))))
    · rename_i i hp
      simp only [Option.some.injEq] at e
      subst e
      obtain ⟨h, r, e⟩ := closeRecv_out c i
      rw [e]
      exact .of rfl rfl rfl (.inr (.inr (.inl rfl)))
    · rename_i m hp
      simp only [Option.some.injEq] at e
      subst e
      obtain ⟨l, e1, e2⟩ := send_wrote c (.pong m)
      rw [e1]
      refine ⟨rfl, rfl, ⟨l, rfl, ?_⟩, .inr (.inr (.inl rfl))⟩
      intro x hx
      obtain ⟨k1, k2⟩ := e2 x hx
      exact .inr (.inr ⟨k2, by simp [k1]⟩)
  | exit =>
    dsimp only at e
    split at e <;> simp only [Option.some.injEq, reduceCtorEq] at e
    obtain ⟨h, r, e1⟩ := exit_out c
    rw [← e, e1]
    exact .of rfl rfl rfl (.inr (.inr (.inr (.inl rfl))))
  | giveUp =>
    dsimp only at e
    repeat' split at e
    all_goals try (simp at e; done)
    simp only [Option.some.injEq] at e
    subst e
    exact .of rfl rfl rfl (.inr (.inr (.inl rfl)))
  | close =>
    simp only [Option.some.injEq] at e
    obtain ⟨h, e1⟩ := closeConn_out c
    rw [← e, e1]
    exact .of rfl rfl rfl (.inl rfl)
  | recv i =>
    dsimp only at e
    repeat' split at e
    all_goals try (simp at e; done)
    simp only [Option.some.injEq] at e
    subst e
    exact .of rfl rfl rfl (.inl rfl)
  | reply i p =>
    dsimp only at e
    repeat' split at e
    all_goals try (simp at e; done)
    rename_i s _ _
    simp only [Option.some.injEq] at e
    subst e
    obtain ⟨l, e1, e2⟩ := send_wrote c (.payload s.id p)
    rw [e1]
    refine ⟨rfl, rfl, ⟨l, rfl, ?_⟩, .inl rfl⟩
    intro x hx
    obtain ⟨k1, k2⟩ := e2 x hx
    exact .inr (.inr ⟨k2, by simp [k1]⟩)
  | ret i =>
    dsimp only [ret] at e
    split at e <;> try (simp at e; done)
    rename_i s hs
    split at e
    · simp at e
    · simp only [Option.some.injEq] at e
      subst e
      obtain ⟨l, e1, e2⟩ := send_wrote c (.close s.id)
      rw [e1]
      refine ⟨rfl, rfl, ⟨l, rfl, ?_⟩, .inl rfl⟩
      intro x hx
      obtain ⟨k1, k2⟩ := e2 x hx
      exact .inr (.inr ⟨k2, by simp [k1]⟩)
    · simp only [Option.some.injEq] at e
      subst e
      exact .of rfl rfl rfl (.inl rfl)
    · simp only [Option.some.injEq] at e
      subst e
      exact .of rfl rfl rfl (.inl rfl)
    · split at e
      all_goals
        simp only [Option.some.injEq] at e
        subst e
        exact .of rfl rfl rfl (.inl rfl)
    · simp at e
  | graceful =>
    dsimp only at e
    split at e
    all_goals
      simp only [Option.some.injEq] at e
      subst e
      exact .of rfl rfl rfl (.inl rfl)
  | drain k =>
    dsimp only [drain] at e
    split at e <;> try (simp at e; done)
    · simp only [Option.some.injEq] at e
      subst e
      obtain ⟨l, e1, e2⟩ := send_wrote c (.goAway (c.next - 1))
      rw [e1]
      refine ⟨rfl, rfl, ⟨l, rfl, ?_⟩, .inl rfl⟩
      intro x hx
      obtain ⟨k1, k2⟩ := e2 x hx
      exact .inr (.inr ⟨k2, by simp [k1]⟩)
    · split at e <;> simp only [Option.some.injEq, reduceCtorEq] at e
      obtain ⟨h, e1⟩ := closeConn_out { c with gs := c.gs.set k .finished }
      rw [← e, e1]
      exact .of rfl rfl rfl (.inl rfl)
  | timeout k =>
    dsimp only at e
    split at e <;> simp only [Option.some.injEq, reduceCtorEq] at e
    obtain ⟨h, e1⟩ := closeConn_out { c with gs := c.gs.set k .timedOut }
    rw [← e, e1]
    exact .of rfl rfl rfl (.inl rfl)

/-- A frame read by the server writes nothing and does not change the form. -/
theorem read_forms (c : Conn) (f : Frame) : (read c f).out = c.out ∧ (read c f).packing = c.packing ∧
    (read c f).allowPacking = c.allowPacking := by
  unfold read
  repeat' split
  all_goals exact ⟨rfl, rfl, rfl⟩

/-- On a closed connection nothing is written, and it stays closed. -/
theorem closed_quiet {c c' : Conn} {a : Act} (e : step c a = some c') (hr : ∀ f, a ≠ .read f) (hc : c.closed = true) :
    c'.out = c.out ∧ c'.closed = true := by
  have hsend : ∀ d m, d.closed = true → send d m = d := by intro d m hd; unfold send; rw [if_pos hd]
  have hclose : ∀ d, d.closed = true → closeConn d = d := by intro d hd; unfold closeConn; rw [if_pos hd]
  have hrecv : ∀ d i, (closeRecv d i).out = d.out ∧ (closeRecv d i).closed = d.closed := by
    intro d i; unfold closeRecv; repeat' split
    all_goals exact ⟨rfl, rfl⟩
  have hcan : ∀ d i, (closeCancel d i).out = d.out ∧ (closeCancel d i).closed = d.closed := by
    intro d i; unfold closeCancel; repeat' split
    all_goals exact ⟨rfl, rfl⟩
  unfold step at e
  split at e
  · simp at e
  cases a with
  | read f => exact absurd rfl (hr f)
  | exit =>
    dsimp only at e
    split at e <;> simp only [Option.some.injEq, reduceCtorEq] at e
    subst e
    have : ∀ (l : List (UInt32 × Nat)) (d : Conn), (l.foldl (fun c e => closeRecv c e.2) d).out = d.out ∧
        (l.foldl (fun c e => closeRecv c e.2) d).closed = d.closed := by
      intro l
      induction l with
      | nil => intro d; exact ⟨rfl, rfl⟩
      | cons e l ih => intro d; rw [List.foldl_cons]; exact ⟨(ih _).1.trans (hrecv d e.2).1, (ih _).2.trans (hrecv d e.2).2⟩
    unfold exit
    exact ⟨(this c.sessions { c with pc := .exited }).1, (this c.sessions { c with pc := .exited }).2.trans hc⟩
  | tick =>
    dsimp only [tick] at e
    repeat' split at e
    all_goals try (simp at e; done)
    all_goals
      simp only [Option.some.injEq] at e
      subst e
    all_goals first
      | exact ⟨rfl, hc⟩
      | (rw [hsend c _ hc]; exact ⟨rfl, hc⟩)
      | exact ⟨(hrecv c _).1, (hrecv c _).2.trans hc⟩
      | exact ⟨(hcan c _).1, (hcan c _).2.trans hc⟩
      | (unfold create; split <;> exact ⟨rfl, hc⟩)
  | ret i =>
    dsimp only [ret] at e
    repeat' split at e
    all_goals try (simp at e; done)
    all_goals
      simp only [Option.some.injEq] at e
      subst e
    all_goals first
      | exact ⟨rfl, hc⟩
      | (rw [hsend c _ hc]; exact ⟨rfl, hc⟩)
  | drain k =>
    dsimp only [drain] at e
    repeat' split at e
    all_goals try (simp at e; done)
    all_goals
      simp only [Option.some.injEq] at e
      subst e
    all_goals first
      | exact ⟨rfl, hc⟩
      | (rw [hsend c _ hc]; exact ⟨rfl, hc⟩)
      | (rw [hclose _ (by exact hc)]; exact ⟨rfl, hc⟩)
  | _ =>
    dsimp only at e
    repeat' split at e
    all_goals try (simp at e; done)
    all_goals
      simp only [Option.some.injEq] at e
      subst e
    all_goals first
      | exact ⟨rfl, hc⟩
      | (rw [hsend c _ hc]; exact ⟨rfl, hc⟩)
      | (rw [hclose _ (by exact hc)]; exact ⟨rfl, hc⟩)

/-- Only the read loop moves the read loop. -/
theorem pc_step {c c' : Conn} {a : Act} (e : step c a = some c') (hr : ∀ f, a ≠ .read f) (ht : a ≠ .tick) (hx : a ≠ .exit)
    (hs : ∀ i p, c.pc ≠ .sending i p) : c'.pc = c.pc := by
  have hsend : ∀ d m, (send d m).pc = d.pc := by intro d m; unfold send; split <;> rfl
  have hclose : ∀ d, (closeConn d).pc = d.pc := by
    intro d
    have : ∀ (l : List (UInt32 × Nat)) (d : Conn), (l.foldl (fun c e => closeCancel c e.2) d).pc = d.pc := by
      intro l
      induction l with
      | nil => intro d; rfl
      | cons e l ih =>
        intro d
        rw [List.foldl_cons, ih]
        unfold closeCancel
        split <;> rfl
    unfold closeConn
    split
    · rfl
    · exact this _ _
  unfold step at e
  split at e
  · simp at e
  cases a with
  | read f => exact absurd rfl (hr f)
  | tick => exact absurd rfl ht
  | exit => exact absurd rfl hx
  | giveUp =>
    dsimp only at e
    split at e <;> try (simp at e; done)
    rename_i i p hp
    exact absurd hp (hs i p)
  | ret i =>
    dsimp only [ret] at e
    repeat' split at e
    all_goals try (simp at e; done)
    all_goals
      simp only [Option.some.injEq] at e
      subst e
    all_goals first
      | rfl
      | exact hsend _ _
  | drain k =>
    dsimp only [drain] at e
    repeat' split at e
    all_goals try (simp at e; done)
    all_goals
      simp only [Option.some.injEq] at e
      subst e
    all_goals first
      | rfl
      | exact hsend _ _
      | exact hclose _
  | _ =>
    dsimp only at e
    repeat' split at e
    all_goals try (simp at e; done)
    all_goals
      simp only [Option.some.injEq] at e
      subst e
    all_goals first
      | rfl
      | exact hsend _ _
      | exact hclose _

end Claw.SrvConn
