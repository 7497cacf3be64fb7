import Verif.Lemmas.ClientConn

/-!
# C62, C63: the connection of the client

An execution is a list of actions: any frames of the server, any interleaving of the read loop with the callers.
-/

namespace Claw.CliConn

open Claw.SrvConn (lookup remove lookup_mem mem_remove mem_insert)

set_option linter.unusedSimpArgs false

theorem reach_inv {as : List Act} {b : Bool} {c : Conn} (h : run as { usePacking := b } = some c) : Inv c :=
  Inv.run as (Inv.init b) h

theorem run_append : ∀ (as bs : List Act) (c : Conn), run (as ++ bs) c = (run as c).bind (run bs)
  | [], bs, c => rfl
  | a :: as, bs, c => by
    simp only [List.cons_append, run]
    cases step c a with
    | none => rfl
    | some d => exact run_append as bs d

/-- Induction over an execution. -/
theorem reach_induction (P : List Act → Conn → Prop) {b : Bool} (h0 : P [] { usePacking := b })
    (hs : ∀ as c a c', Inv c → P as c → step c a = some c' → P (as ++ [a]) c') {as : List Act} {c : Conn}
    (h : run as { usePacking := b } = some c) : P as c := by
  have key : ∀ (as pre : List Act) (c c' : Conn), Inv c → P pre c → run as c = some c' → P (pre ++ as) c' := by
    intro as
    induction as with
    | nil => intro pre c c' _ hp e; simp [run] at e; subst e; simpa using hp
    | cons a as ih =>
      intro pre c c' hi hp e
      simp only [run, Option.bind_eq_some_iff] at e
      obtain ⟨d, e1, e2⟩ := e
      have := ih (pre ++ [a]) d c' (hi.step e1) (hs _ _ _ _ hi hp e1) e2
      simpa using this
  simpa using key as [] _ _ (Inv.init b) h0 h

/-! ### C62 -/

/-- **C62** Whatever the server sends, no channel of the client connection is closed twice and nothing is sent on a closed
channel: the read loop, the calls that open sessions, the readers of streams and the calls of `GracefulClose` do not
panic. -/
theorem C62_no_panic (as : List Act) (b : Bool) (c : Conn) (h : run as { usePacking := b } = some c) : c.crashed = false :=
  (reach_inv h).nocrash

/-- A server that acknowledges an open twice, gives two sessions the same identifier, closes a session twice and sends a payload after
that. -/
def hostile : List Act :=
  [.open, .open, .sendOpen 0, .sendOpen 1, .read (.ack 0 5 true false), .read (.ack 0 5 true false), .read (.ack 1 5 true false),
   .read (.close 5 0), .tick, .tick, .read (.close 5 0), .read (.payload 5 ⟨[1], false⟩ false), .exit]

example : ∃ c, run hostile { usePacking := true } = some c ∧ c.sessions = [] ∧ c.pending = [] := ⟨_, rfl, by decide, by decide⟩

/-! ### C63 -/

theorem checkDrained_rest (c : Conn) : (checkDrained c).heap = c.heap ∧ (checkDrained c).sessions = c.sessions ∧
    (checkDrained c).draining = c.draining ∧ (checkDrained c).pending = c.pending ∧ (checkDrained c).gs = c.gs ∧
    (checkDrained c).closed = c.closed ∧ (checkDrained c).openers = c.openers := by
  rcases checkDrained_frame c with e | ⟨e, _⟩ <;> rw [e] <;> exact ⟨rfl, rfl, rfl, rfl, rfl, rfl, rfl⟩

theorem closeRecv_rest (c : Conn) (i : Nat) : (closeRecv c i).heap.length = c.heap.length ∧ (closeRecv c i).draining = c.draining := by
  unfold closeRecv
  repeat' split
  all_goals simp

theorem exit_rest (c : Conn) : (exit c).heap.length = c.heap.length ∧ (exit c).draining = c.draining := by
  have : ∀ (l : List (UInt32 × Nat)) (c : Conn), (l.foldl (fun c e => closeRecv c e.2) c).heap.length = c.heap.length ∧
      (l.foldl (fun c e => closeRecv c e.2) c).draining = c.draining := by
    intro l
    induction l with
    | nil => intro c; exact ⟨rfl, rfl⟩
    | cons e l ih =>
      intro c
      rw [List.foldl_cons]
      have h1 := ih (closeRecv c e.2)
      have h2 := closeRecv_rest c e.2
      exact ⟨h1.1.trans h2.1, h1.2.trans h2.2⟩
  exact this c.sessions _

theorem closeConn_rest (c : Conn) : (closeConn c).heap.length = c.heap.length ∧ (closeConn c).draining = c.draining := by
  obtain ⟨heap, e, k⟩ := closeConn_like c
  rw [e]
  exact ⟨k.1, rfl⟩

theorem draining_step {c c' : Conn} {a : Act} (hd : c.draining = true) (e : step c a = some c') :
    c'.heap.length = c.heap.length ∧ c'.draining = true := by
  unfold step at e
  split at e
  · simp at e
  have hsend : ∀ (c : Conn) m, (send c m).heap = c.heap ∧ (send c m).draining = c.draining := by
    intro c m; obtain ⟨o, eo⟩ := send_frame c m; rw [eo]; exact ⟨rfl, rfl⟩
  cases a with
  | read f =>
    dsimp only at e
    split at e <;> simp only [Option.some.injEq, reduceCtorEq] at e
    subst e
    cases f with
    | ack o sid ok pk =>
      unfold read handleAck
      dsimp only
      repeat' split
      all_goals first
        | exact ⟨rfl, hd⟩
        | (refine ⟨by simp [(checkDrained_rest _).1], ?_⟩; simp [(checkDrained_rest _).2.2.1, hd])
    | close sid code =>
      unfold read
      dsimp only
      split
      · exact ⟨rfl, hd⟩
      · exact ⟨congrArg _ (checkDrained_rest _).1, (checkDrained_rest _).2.2.1.trans hd⟩
    | payload sid p d =>
      unfold read
      dsimp only
      repeat' split
      all_goals exact ⟨rfl, hd⟩
    | goAway => exact ⟨(closeConn_rest c).1, (closeConn_rest c).2.trans hd⟩
    | other => exact ⟨rfl, hd⟩
  | tick =>
    dsimp only [tick] at e
    repeat' split at e
    all_goals try (simp at e; done)
    all_goals
      simp only [Option.some.injEq] at e
      subst e
    all_goals first
      | exact ⟨rfl, hd⟩
      | exact ⟨(closeRecv_rest c _).1, (closeRecv_rest c _).2.trans hd⟩
      | exact ⟨by simp, hd⟩
  | exit =>
    dsimp only at e
    split at e <;> simp only [Option.some.injEq, reduceCtorEq] at e
    subst e
    exact ⟨(exit_rest c).1, (exit_rest c).2.trans hd⟩
  | close =>
    simp only [Option.some.injEq] at e
    subst e
    exact ⟨(closeConn_rest c).1, (closeConn_rest c).2.trans hd⟩
  | recv i => obtain ⟨s, s', _, _, _, rfl⟩ := onSess_cases e; exact ⟨by simp, hd⟩
  | iterCancel i => obtain ⟨s, s', _, _, _, rfl⟩ := onSess_cases e; exact ⟨by simp, hd⟩
  | iterTick i => obtain ⟨s, s', _, _, _, rfl⟩ := onSess_cases e; exact ⟨by simp, hd⟩
  | closeSess i =>
    dsimp only at e
    split at e <;> simp only [Option.some.injEq, reduceCtorEq] at e
    subst e
    obtain ⟨heap, e1, k⟩ := closeCancel_like c i
    rw [(hsend _ _).1, (hsend _ _).2, e1]
    exact ⟨k.1, hd⟩
  | drain k =>
    dsimp only at e
    repeat' split at e
    all_goals try (simp at e; done)
    all_goals
      simp only [Option.some.injEq] at e
      subst e
    · exact ⟨rfl, hd⟩
    · exact ⟨(closeConn_rest _).1, (closeConn_rest _).2.trans hd⟩
  | timeout k =>
    dsimp only at e
    repeat' split at e
    all_goals try (simp at e; done)
    simp only [Option.some.injEq] at e
    subst e
    exact ⟨(closeConn_rest _).1, (closeConn_rest _).2.trans hd⟩
  | graceful =>
    dsimp only at e
    repeat' split at e
    all_goals
      simp only [Option.some.injEq] at e
      subst e
      exact ⟨rfl, by first | rfl | exact hd⟩
  | _ =>
    dsimp only at e
    repeat' split at e
    all_goals try (simp at e; done)
    all_goals
      simp only [Option.some.injEq] at e
      subst e
    all_goals first
      | exact ⟨rfl, hd⟩
      | exact ⟨by rw [(hsend _ _).1], (hsend _ _).2.trans hd⟩
      | (rename_i h; exact absurd hd h)

/-- **C63** Once `GracefulClose` was called, no session is opened any more. -/
theorem C63_no_new_sessions {c : Conn} (hd : c.draining = true) : ∀ (bs : List Act) {c' : Conn}, run bs c = some c' →
    c'.heap.length = c.heap.length ∧ c'.draining = true := by
  intro bs
  induction bs generalizing c with
  | nil => intro c' e; simp [run] at e; exact e ▸ ⟨rfl, hd⟩
  | cons a bs ih =>
    intro c' e
    simp only [run, Option.bind_eq_some_iff] at e
    obtain ⟨d, e1, e2⟩ := e
    have h1 := draining_step hd e1
    have h2 := ih h1.2 e2
    exact ⟨h2.1.trans h1.1, h2.2⟩

/-- The identifiers of the sessions the server closed. -/
def closedIds : List Act → List UInt32
  | [] => []
  | .read (.close sid _) :: as => sid :: closedIds as
  | _ :: as => closedIds as

theorem closedIds_append : ∀ (as bs : List Act), closedIds (as ++ bs) = closedIds as ++ closedIds bs
  | [], bs => rfl
  | a :: as, bs => by
    have := closedIds_append as bs
    cases a with
    | read f => cases f <;> simp [closedIds, this]
    | _ => simp [closedIds, this]

/-- An accepted session is in the map, or the server closed it. -/
def Known (as : List Act) (c : Conn) : Prop :=
  ∀ s ∈ c.heap, s.sid ≠ 0 → (∃ e ∈ c.sessions, e.1 = s.sid) ∨ s.sid ∈ closedIds as

theorem known_like {as : List Act} {a : Act} {c c' : Conn} (h : Known as c) (hs : c'.sessions = c.sessions)
    (hl : AllLike c.heap c'.heap) : Known (as ++ [a]) c' := by
  intro s' hs' hne
  obtain ⟨i, hi⟩ := List.getElem?_of_mem hs'
  have hlt : i < c.heap.length := by rw [← hl.1]; exact (List.getElem?_eq_some_iff.1 hi).1
  obtain ⟨s'', k1, k2⟩ := hl.2 i c.heap[i] (by simp [hlt])
  rw [hi] at k1
  cases k1
  rw [k2.1] at hne ⊢
  rw [hs, closedIds_append]
  rcases h _ (List.getElem_mem hlt) hne with h | h
  · exact .inl h
  · exact .inr (by simp [h])

theorem known_step {as : List Act} {c c' : Conn} {a : Act} (hi : Inv c) (h : Known as c) (e : step c a = some c') :
    Known (as ++ [a]) c' := by
  have hsend : ∀ (c : Conn) m, (send c m).heap = c.heap ∧ (send c m).sessions = c.sessions := by
    intro c m; obtain ⟨o, eo⟩ := send_frame c m; rw [eo]; exact ⟨rfl, rfl⟩
  have hcl : ∀ c : Conn, (closeConn c).sessions = c.sessions ∧ AllLike c.heap (closeConn c).heap := by
    intro c; obtain ⟨heap, e, k⟩ := closeConn_like c; rw [e]; exact ⟨rfl, k⟩
  -- a session loses its channel, nothing else
  have recvd : ∀ (l : List Sess) (i : Nat) (s : Sess), l[i]? = some s → ∀ t ∈ l.set i { s with recvClosed := true },
      ∃ t' ∈ l, t.sid = t'.sid := by
    intro l i s hs t ht
    rcases List.mem_or_eq_of_mem_set ht with ht | rfl
    · exact ⟨t, ht, rfl⟩
    · exact ⟨s, List.mem_of_getElem? hs, rfl⟩
  unfold step at e
  rw [if_neg (by simp [hi.nocrash])] at e
  cases a with
  | read f =>
    dsimp only at e
    split at e <;> simp only [Option.some.injEq, reduceCtorEq] at e
    subst e
    cases f with
    | ack o sid ok pk =>
      show Known (as ++ [_]) (handleAck c o sid ok pk)
      unfold handleAck
      split
      · exact known_like h rfl (AllLike.refl _)
      rename_i i hl
      dsimp only
      split
      · exact known_like h rfl (AllLike.refl _)
      rename_i s hs
      split
      · exact known_like h rfl (AllLike.refl _)
      split
      · intro t ht hne
        simp only [(checkDrained_rest _).1, (checkDrained_rest _).2.1] at ht ⊢
        rw [closedIds_append]
        rcases List.mem_or_eq_of_mem_set ht with ht | rfl
        · rcases h t ht hne with h | h
          · exact .inl h
          · exact .inr (by simp [h])
        · rcases h s (List.mem_of_getElem? hs) hne with h | h
          · exact .inl h
          · exact .inr (by simp [h])
      · intro t ht hne
        simp only at ht ⊢
        rw [closedIds_append]
        rcases List.mem_or_eq_of_mem_set ht with ht | rfl
        · rcases h t ht hne with ⟨x, h1, h2⟩ | h
          · by_cases hx : x.1 = sid
            · exact .inl ⟨(sid, i), mem_insert.2 (.inr rfl), by rw [← h2, hx]⟩
            · exact .inl ⟨x, mem_insert.2 (.inl ⟨h1, hx⟩), h2⟩
          · exact .inr (by simp [h])
        · exact .inl ⟨(sid, i), mem_insert.2 (.inr rfl), rfl⟩
    | close sid code =>
      unfold read
      dsimp only
      split
      · exact known_like h rfl (AllLike.refl _)
      rename_i i hl
      intro t ht hne
      simp only [(checkDrained_rest _).1, (checkDrained_rest _).2.1] at ht ⊢
      rw [closedIds_append]
      rcases h t ht hne with ⟨x, h1, h2⟩ | h
      · by_cases hx : x.1 = sid
        · exact .inr (by simp [closedIds, ← h2, hx])
        · exact .inl ⟨x, mem_remove.2 ⟨h1, hx⟩, h2⟩
      · exact .inr (by simp [h])
    | payload sid p d =>
      unfold read
      dsimp only
      repeat' split
      all_goals exact known_like h rfl (AllLike.refl _)
    | goAway => exact known_like h (hcl c).1 (hcl c).2
    | other => exact known_like h rfl (AllLike.refl _)
  | tick =>
    dsimp only [tick] at e
    split at e
    · simp at e
    · simp at e
    · split at e <;> simp only [Option.some.injEq, reduceCtorEq] at e
      rename_i hs
      subst e
      exact known_like h rfl (AllLike.set hs ⟨rfl, rfl, rfl, rfl⟩)
    · rename_i i hp
      simp only [Option.some.injEq] at e
      subst e
      unfold closeRecv
      split
      · exact known_like h rfl (AllLike.refl _)
      rename_i s hs
      split
      · exact known_like h rfl (AllLike.refl _)
      · intro t ht hne
        obtain ⟨t', k1, k2⟩ := recvd _ _ _ hs t ht
        rw [k2] at hne ⊢
        rw [closedIds_append]
        rcases h t' k1 hne with h | h
        · exact .inl h
        · exact .inr (by simp [h])
    · repeat' split at e
      all_goals try (simp at e; done)
      all_goals
        simp only [Option.some.injEq] at e
        subst e
      · exact known_like h rfl (AllLike.refl _)
      · rename_i hs _ _
        exact known_like h rfl (AllLike.set hs ⟨rfl, rfl, rfl, rfl⟩)
  | exit =>
    dsimp only at e
    split at e <;> simp only [Option.some.injEq, reduceCtorEq] at e
    rename_i hp
    subst e
    obtain ⟨heap, e, k0, k1, k2⟩ := exit_all c.sessions { c with pc := .exited } hi.nodupS (fun e he => by
      obtain ⟨s, h1, _, _, h4⟩ := hi.sess e he
      exact ⟨s, h1, h4 (by simp [hp])⟩)
    unfold exit
    rw [e]
    intro t ht hne
    obtain ⟨j, hj⟩ := List.getElem?_of_mem ht
    dsimp only at hj k0
    have hlt : j < c.heap.length := by rw [← k0]; exact (List.getElem?_eq_some_iff.1 hj).1
    have hsid : t.sid = c.heap[j].sid := by
      by_cases hin : ∃ x ∈ c.sessions, x.2 = j
      · obtain ⟨x, hx, rfl⟩ := hin
        obtain ⟨s, g1, g2⟩ := k2 x hx
        rw [hj] at g2
        cases g2
        dsimp only at g1
        rw [List.getElem?_eq_some_iff] at g1
        obtain ⟨_, g1⟩ := g1
        rw [← g1]
      · have := k1 j c.heap[j] (by simp [hlt]) (fun x hx heq => hin ⟨x, hx, heq⟩)
        rw [hj] at this
        cases this
        rfl
    rw [hsid] at hne ⊢
    rw [closedIds_append]
    rcases h _ (List.getElem_mem hlt) hne with h | h
    · exact .inl h
    · exact .inr (by simp [h])
  | close =>
    simp only [Option.some.injEq] at e
    subst e
    exact known_like h (hcl c).1 (hcl c).2
  | «open» =>
    dsimp only at e
    split at e
    · simp only [Option.some.injEq] at e; subst e; exact known_like h rfl (AllLike.refl _)
    split at e
    · simp only [Option.some.injEq] at e; subst e; exact known_like h rfl (AllLike.refl _)
    simp only [Option.some.injEq] at e
    subst e
    intro t ht hne
    rw [closedIds_append]
    rcases List.mem_append.1 ht with ht | ht
    · rcases h t ht hne with h | h
      · exact .inl h
      · exact .inr (by simp [h])
    · simp at ht
      subst ht
      simp at hne
  | recv i =>
    obtain ⟨s, s', h1, _, h2, rfl⟩ := onSess_cases e
    exact known_like h rfl (AllLike.set h1 (iterRecv_like h2))
  | iterCancel i =>
    obtain ⟨s, s', h1, _, h2, rfl⟩ := onSess_cases e
    split at h2 <;> simp only [Option.some.injEq, reduceCtorEq] at h2
    subst h2
    exact known_like h rfl (AllLike.set h1 ⟨rfl, rfl, rfl, rfl⟩)
  | iterTick i =>
    obtain ⟨s, s', h1, _, h2, rfl⟩ := onSess_cases e
    exact known_like h rfl (AllLike.set h1 (iterTick_like h2))
  | closeSess i =>
    dsimp only at e
    split at e <;> simp only [Option.some.injEq, reduceCtorEq] at e
    subst e
    obtain ⟨heap, e1, k⟩ := closeCancel_like c i
    refine known_like h ?_ ?_
    · rw [(hsend _ _).2, e1]
    · rw [(hsend _ _).1, e1]; exact k
  | drain k =>
    dsimp only at e
    repeat' split at e
    all_goals try (simp at e; done)
    all_goals
      simp only [Option.some.injEq] at e
      subst e
    · exact known_like h rfl (AllLike.refl _)
    · exact known_like h (hcl _).1 (hcl _).2
  | timeout k =>
    dsimp only at e
    repeat' split at e
    all_goals try (simp at e; done)
    simp only [Option.some.injEq] at e
    subst e
    exact known_like h (hcl _).1 (hcl _).2
  | graceful =>
    dsimp only at e
    repeat' split at e
    all_goals
      simp only [Option.some.injEq] at e
      subst e
      exact known_like h rfl (AllLike.refl _)
  | _ =>
    dsimp only at e
    repeat' split at e
    all_goals try (simp at e; done)
    all_goals
      simp only [Option.some.injEq] at e
      subst e
    all_goals first
      | exact known_like h rfl (AllLike.refl _)
      | (refine known_like h ?_ ?_
         · exact (hsend _ _).2
         · show AllLike _ (send _ _).heap
           rw [(hsend _ _).1]
           exact AllLike.refl _)

/-- C63: when `GracefulClose` returns because it found no session or was told that the last one ended, then no open waits
for its answer and the server has closed every session that was accepted. Missing: the return because the connection was closed by
other means, see `C63_nil_with_open_sessions`. -/
theorem C63_success_means_done_partial {as : List Act} {b : Bool} {c : Conn} (h : run as { usePacking := b } = some c)
    (hf : GPc.finished ∈ c.gs) : c.sessions = [] ∧ c.pending = [] ∧ ∀ s ∈ c.heap, s.sid ≠ 0 → s.sid ∈ closedIds as := by
  obtain ⟨_, h2, h3⟩ := (reach_inv h).fin (.inr hf)
  refine ⟨h2, h3, ?_⟩
  have hk := reach_induction (fun as c => Known as c) (by intro s hs; simp at hs) (fun _ _ _ _ hi hp e => known_step hi hp e) h
  intro s hs hne
  rcases hk s hs hne with ⟨x, hx, _⟩ | h
  · rw [h2] at hx; simp at hx
  · exact h

/-- Two sessions, `GracefulClose`, the server closes both. -/
def closesWell : List Act :=
  [.open, .sendOpen 0, .open, .read (.ack 0 1 true false), .openReady 0, .graceful, .sendOpen 1, .read (.ack 1 2 true false),
   .read (.close 1 0), .tick, .tick, .read (.close 2 0), .tick, .tick, .drain 0, .drain 0]

example : ∃ c, run closesWell { usePacking := false } = some c ∧ c.gs = [.finished] ∧ c.heap.map (·.sid) = [1, 2] ∧ c.closed = true :=
  ⟨_, rfl, by decide, by decide, by decide⟩

/-- C63 fails: the server says GoAway while a session is open and `GracefulClose` waits for it. The client closes the
connection at once, and `GracefulClose` returns nil although the session has not ended. -/
theorem C63_nil_with_open_sessions : ∃ as c, run as {} = some c ∧ c.gs = [.sawClosed] ∧ c.sessions = [(1, 0)] ∧
    closedIds as = [] :=
  ⟨[.open, .sendOpen 0, .read (.ack 0 1 true false), .openReady 0, .graceful, .read .goAway, .gracefulClosed 0], _, rfl, by decide,
    by decide, by decide⟩

/-- Nothing is open, and still a call of `GracefulClose` waits. -/
structure Stuck (c : Conn) : Prop where
  sess : c.sessions = []
  pend : c.pending = []
  drain : c.draining = true
  chan : c.drained = some false
  alive : c.closed = false
  gs : c.gs = [.waiting]
  pc : c.pc = .idle ∨ c.pc = .exited

/-- What ends the wait: the end of the context, a close of the connection, another call. -/
def wakes : Act → Bool
  | .close | .timeout _ | .graceful | .read .goAway => true
  | _ => false

theorem Stuck.step {c c' : Conn} {a : Act} (h : Stuck c) (ha : wakes a = false) (e : step c a = some c') : Stuck c' := by
  obtain ⟨h1, h2, h3, h4, h5, h6, h7⟩ := h
  have hnone : ∀ id, lookup ([] : List (UInt32 × Nat)) id = none := fun _ => rfl
  have hsend : ∀ (c : Conn) m, ∃ o, send c m = { c with out := o } := send_frame
  unfold CliConn.step at e
  split at e
  · simp at e
  cases a with
  | read f =>
    dsimp only at e
    split at e <;> simp only [Option.some.injEq, reduceCtorEq] at e
    subst e
    cases f <;> simp_all [wakes, CliConn.read, handleAck]
    all_goals exact ⟨h1, h2, h3, h4, h5, h6, .inl ‹_›⟩
  | tick => rcases h7 with h7 | h7 <;> simp [tick, h7] at e
  | giveUp => rcases h7 with h7 | h7 <;> simp [h7] at e
  | exit =>
    dsimp only at e
    split at e <;> simp only [Option.some.injEq, reduceCtorEq] at e
    subst e
    have he : exit c = { c with pc := .exited } := by unfold exit; rw [h1]; rfl
    rw [he]
    exact ⟨h1, h2, h3, h4, h5, h6, .inr rfl⟩
  | close => simp [wakes] at ha
  | timeout k => simp [wakes] at ha
  | graceful => simp [wakes] at ha
  | recv i => obtain ⟨s, s', _, _, _, rfl⟩ := onSess_cases e; exact ⟨h1, h2, h3, h4, h5, h6, h7⟩
  | iterCancel i => obtain ⟨s, s', _, _, _, rfl⟩ := onSess_cases e; exact ⟨h1, h2, h3, h4, h5, h6, h7⟩
  | iterTick i => obtain ⟨s, s', _, _, _, rfl⟩ := onSess_cases e; exact ⟨h1, h2, h3, h4, h5, h6, h7⟩
  | «open» =>
    simp only [h5, h3, Bool.false_eq_true, if_false, if_true, Option.some.injEq] at e
    subst e
    exact ⟨h1, h2, h3, h4, h5, h6, h7⟩
  | drain k =>
    dsimp only at e
    rw [h6, h4] at e
    cases k <;> simp at e
  | gracefulClosed k =>
    dsimp only at e
    rw [h6, h5] at e
    cases k <;> simp at e
  | closeSess i =>
    dsimp only at e
    split at e <;> simp only [Option.some.injEq, reduceCtorEq] at e
    subst e
    obtain ⟨heap, e1, k⟩ := closeCancel_like c i
    obtain ⟨o, eo⟩ := hsend (closeCancel c i) (.close ‹Sess›.sid)
    rw [eo, e1]
    exact ⟨h1, h2, h3, h4, h5, h6, h7⟩
  | _ =>
    dsimp only at e
    repeat' split at e
    all_goals try (simp at e; done)
    all_goals
      simp only [Option.some.injEq] at e
      subst e
    all_goals first
      | exact ⟨h1, by simp [h2, remove], h3, h4, h5, h6, h7⟩
      | (unfold send; rw [if_neg (by simp [h5])]; exact ⟨h1, h2, h3, h4, h5, h6, h7⟩)

/-- C63 fails in another way: an open times out while `GracefulClose` waits. Nothing is open any more, but nobody tells `GracefulClose`:
until its context ends, the connection is closed by someone or `GracefulClose` is called again, it does not return. -/
theorem C63_waits_for_nothing : ∃ c, run [.open, .sendOpen 0, .graceful, .openTimeout 0] {} = some c ∧
    c.sessions = [] ∧ c.pending = [] ∧
    ∀ bs c', (∀ a ∈ bs, wakes a = false) → run bs c = some c' → c'.gs = [.waiting] ∧ c'.sessions = [] ∧ c'.pending = [] := by
  refine ⟨_, rfl, by decide, by decide, ?_⟩
  intro bs c' ha e
  have key : ∀ (bs : List Act) (c c' : Conn), Stuck c → (∀ a ∈ bs, wakes a = false) → run bs c = some c' → Stuck c' := by
    intro bs
    induction bs with
    | nil => intro c c' h _ e; simp [run] at e; exact e ▸ h
    | cons a bs ih =>
      intro c c' h ha e
      simp only [run, Option.bind_eq_some_iff] at e
      obtain ⟨d, e1, e2⟩ := e
      exact ih d c' (h.step (ha a (by simp)) e1) (fun x hx => ha x (by simp [hx])) e2
  have := key bs _ c' ⟨by decide, by decide, by decide, by decide, by decide, by decide, .inl (by decide)⟩ ha e
  exact ⟨this.gs, this.sess, this.pend⟩

end Claw.CliConn
