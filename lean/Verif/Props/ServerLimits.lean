import Verif.Props.ServerFrames

/-!
# C56: every handler learns that the connection ended; C57: the limit on concurrent handlers
-/

namespace Claw.SrvConn

open Claw

set_option linter.unusedSimpArgs false

/-! ### C56: every handler is told -/

/-- The handler has returned and its session is out of the map. -/
def Gone (h : HPc) : Prop := h = .deleted ∨ h = .closed ∨ h = .done

/-- A session whose receive channel is open is in the map, or the read loop is about to close the channel. -/
def Told (c : Conn) : Prop := ∀ (i : Nat) (s : Sess), c.heap[i]? = some s →
  s.recvClosed = true ∨ Gone s.h ∨ ((s.id, i) ∈ c.sessions ∧ c.pc ≠ .exited) ∨
    c.pc = .closing i ∨ c.pc = .cancelling i ∨ c.pc = .cancelled i

/-- A place of the read loop where it does not hold a session out of the map. -/
def Plain (pc : RPc) : Prop := ∀ i, pc ≠ .closing i ∧ pc ≠ .cancelling i ∧ pc ≠ .cancelled i

theorem Told.keep {c c' : Conn} (h : Told c)
    (hl : ∀ (i : Nat) s', c'.heap[i]? = some s' → ∃ s, c.heap[i]? = some s ∧ s'.id = s.id ∧
      (s.recvClosed = true → s'.recvClosed = true) ∧ (Gone s.h → Gone s'.h))
    (hs : c'.sessions = c.sessions) (hpc : c'.pc = c.pc ∨ (Plain c.pc ∧ c'.pc ≠ .exited)) : Told c' := by
  intro i s' hs'
  obtain ⟨s, k1, k2, k3, k4⟩ := hl i s' hs'
  rcases h i s k1 with h | h | ⟨h, hx⟩ | h
  · exact .inl (k3 h)
  · exact .inr (.inl (k4 h))
  · refine .inr (.inr (.inl ⟨by rw [k2, hs]; exact h, ?_⟩))
    rcases hpc with hpc | hpc
    · rw [hpc]; exact hx
    · exact hpc.2
  · rcases hpc with hpc | hpc
    · rw [hpc]; exact .inr (.inr (.inr h))
    · have := hpc.1 i
      rcases h with h | h | h <;> simp [h] at this

theorem same_heap {c : Conn} {heap : List Sess} (e : heap = c.heap) (i : Nat) (s' : Sess) (h : heap[i]? = some s') :
    ∃ s, c.heap[i]? = some s ∧ s'.id = s.id ∧ (s.recvClosed = true → s'.recvClosed = true) ∧ (Gone s.h → Gone s'.h) :=
  ⟨s', e ▸ h, rfl, id, id⟩

theorem later_heap {l l' : List Sess} (hl : AllLater (fun _ => Eq) l l') (i : Nat) (s' : Sess) (h : l'[i]? = some s') :
    ∃ s, l[i]? = some s ∧ s'.id = s.id ∧ (s.recvClosed = true → s'.recvClosed = true) ∧ (Gone s.h → Gone s'.h) := by
  have hi : i < l.length := by rw [← hl.1]; exact (List.getElem?_eq_some_iff.1 h).1
  obtain ⟨k1, k2⟩ := hl.2 i l[i] s' (by simp [hi]) h
  exact ⟨l[i], by simp [hi], k1.sid, k1.recv, fun g => k2 ▸ g⟩

theorem set_heap {l : List Sess} {j : Nat} {t t' : Sess} (hj : l[j]? = some t) (h1 : t'.id = t.id)
    (h2 : t.recvClosed = true → t'.recvClosed = true) (h3 : Gone t.h → Gone t'.h) (i : Nat) (s' : Sess)
    (h : (l.set j t')[i]? = some s') :
    ∃ s, l[i]? = some s ∧ s'.id = s.id ∧ (s.recvClosed = true → s'.recvClosed = true) ∧ (Gone s.h → Gone s'.h) := by
  rcases set_cases hj h with ⟨rfl, rfl⟩ | ⟨_, h⟩
  · exact ⟨t, hj, h1, h2, h3⟩
  · exact ⟨s', h, rfl, id, id⟩

/-- The read loop takes a session out of the map and is about to close its channel. -/
theorem Told.take {c : Conn} (hinv : Inv c) (hids : Ids c) (hn : c.heap.length < 2 ^ 32) (h : Told c) (hp : c.pc = .idle)
    {id : UInt32} {i : Nat} (hl : lookup c.sessions id = some i) {pc : RPc} (hpc : pc = .closing i ∨ pc = .cancelling i) :
    Told { c with sessions := remove c.sessions id, pc := pc } := by
  obtain ⟨t, ht, hid, _⟩ := hinv.objs _ (lookup_mem hl)
  intro j s hs
  rcases h j s hs with h | h | ⟨h, hx⟩ | h
  · exact .inl h
  · exact .inr (.inl h)
  · by_cases hj : j = i
    · subst hj
      rcases hpc with rfl | rfl
      · exact .inr (.inr (.inr (.inl rfl)))
      · exact .inr (.inr (.inr (.inr (.inl rfl))))
    · refine .inr (.inr (.inl ⟨mem_remove.2 ⟨h, fun e => hj (id_inj hids hn hs ht ?_)⟩, ?_⟩))
      · exact Eq.trans e hid.symm
      · rcases hpc with rfl | rfl <;> simp
  · simp [hp] at h

/-- The channel of the session the read loop holds is closed. -/
theorem Told.shut {c : Conn} (h : Told c) {i : Nat} (hp : c.pc = .closing i ∨ c.pc = .cancelled i) {s : Sess}
    (hs : c.heap[i]? = some s) (hr : s.recvClosed = false) : Told { closeRecv c i with pc := .idle } := by
  unfold closeRecv
  rw [hs]
  simp only [hr, Bool.false_eq_true, if_false]
  intro j t ht
  rcases set_cases hs ht with ⟨rfl, rfl⟩ | ⟨hne, ht⟩
  · exact .inl rfl
  · rcases h j t ht with h | h | ⟨h, hx⟩ | h
    · exact .inl h
    · exact .inr (.inl h)
    · exact .inr (.inr (.inl ⟨h, by simp⟩))
    · exfalso
      rcases hp with hp | hp <;> rw [hp] at h <;> simp at h <;> exact hne h.symm

theorem told_closeConn {c : Conn} (h : Told c) : Told (closeConn c) := by
  obtain ⟨heap', e, a⟩ := closeConn_heap c
  rw [e]
  exact h.keep (later_heap a) rfl (.inl rfl)

theorem told_tick {c c' : Conn} (hinv : Inv c) (hids : Ids c) (hn : c'.heap.length < 2 ^ 32) (h : Told c)
    (e : tick c = some c') : Told c' := by
  have hpcok := hinv.pcok
  unfold PcOk at hpcok
  unfold tick at e
  cases hpc : c.pc with
  | idle => rw [hpc] at e; simp at e
  | exited => rw [hpc] at e; simp at e
  | rejecting o =>
    rw [hpc] at e
    simp only [Option.some.injEq] at e
    subst e
    obtain ⟨o', e'⟩ := send_frame c (.ack o 0 false false)
    rw [e']
    exact h.keep (same_heap rfl) rfl (.inr ⟨by simp [Plain, hpc], by simp⟩)
  | creating o pk =>
    rw [hpc] at e
    simp only [Option.some.injEq] at e
    subst e
    unfold create at hn ⊢
    split
    · exact h.keep (same_heap rfl) rfl (.inr ⟨by simp [Plain, hpc], by simp⟩)
    · rename_i hd
      rw [if_neg hd] at hn
      simp only [List.length_append, List.length_cons, List.length_nil] at hn
      intro j t ht
      simp only at ht
      by_cases hj : j < c.heap.length
      · rw [List.getElem?_append_left hj] at ht
        rcases h j t ht with h | h | ⟨h, hx⟩ | h
        · exact .inl h
        · exact .inr (.inl h)
        · refine .inr (.inr (.inl ⟨mem_insert.2 (.inl ⟨h, ?_⟩), by simp⟩))
          show t.id ≠ c.next
          rw [hids.id j t ht, hids.next]
          intro e
          have := ofNat_inj32 (by omega) (by omega) e
          omega
        · simp [hpc] at h
      · have hlt := (List.getElem?_eq_some_iff.1 ht).1
        have hjl : j = c.heap.length := by simp at hlt; omega
        subst hjl
        simp at ht
        subst ht
        exact .inr (.inr (.inl ⟨mem_insert.2 (.inr rfl), by simp⟩))
  | acking o i =>
    rw [hpc] at e hpcok
    obtain ⟨s, h1, h2⟩ := hpcok
    simp only [h1, Option.some.injEq] at e
    subst e
    obtain ⟨o', e'⟩ := send_frame c (.ack o s.id true c.packing)
    rw [e']
    exact h.keep (same_heap rfl) rfl (.inr ⟨by simp [Plain, hpc], by simp⟩)
  | submitting i =>
    rw [hpc] at e hpcok
    obtain ⟨s, h1, h2⟩ := hpcok
    simp only [h1] at e
    split at e <;> simp only [Option.some.injEq, reduceCtorEq] at e
    subst e
    exact h.keep (set_heap h1 rfl id (by simp [Gone, h2])) rfl (.inr ⟨by simp [Plain, hpc], by simp⟩)
  | sending i p =>
    rw [hpc] at e hpcok
    obtain ⟨s, h1, h2⟩ := hpcok
    simp only [h1] at e
    rw [if_neg (by simp [h2])] at e
    split at e <;> simp only [Option.some.injEq, reduceCtorEq] at e
    subst e
    exact h.keep (set_heap h1 rfl id id) rfl (.inr ⟨by simp [Plain, hpc], by simp⟩)
  | closing i =>
    rw [hpc] at e hpcok
    obtain ⟨s, h1, h2, _⟩ := hpcok
    simp only [Option.some.injEq] at e
    subst e
    exact h.shut (.inl hpc) h1 h2
  | cancelling i =>
    rw [hpc] at e hpcok
    obtain ⟨s, h1, h2, _⟩ := hpcok
    simp only [Option.some.injEq] at e
    subst e
    obtain ⟨heap', e', a⟩ := closeCancel_heap c i
    rw [e']
    intro j t ht
    obtain ⟨t0, k1, k2, k3, k4⟩ := later_heap a j t ht
    rcases h j t0 k1 with h | h | ⟨h, hx⟩ | h
    · exact .inl (k3 h)
    · exact .inr (.inl (k4 h))
    · exact .inr (.inr (.inl ⟨k2 ▸ h, by simp⟩))
    · simp [hpc] at h
      subst h
      exact .inr (.inr (.inr (.inr (.inr rfl))))
  | cancelled i =>
    rw [hpc] at e hpcok
    obtain ⟨s, h1, h2, _⟩ := hpcok
    simp only [Option.some.injEq] at e
    subst e
    exact h.shut (.inr hpc) h1 h2
  | ponging n =>
    rw [hpc] at e
    simp only [Option.some.injEq] at e
    subst e
    obtain ⟨o', e'⟩ := send_frame c (.pong n)
    rw [e']
    exact h.keep (same_heap rfl) rfl (.inr ⟨by simp [Plain, hpc], by simp⟩)

theorem told_ret {c c' : Conn} {i : Nat} (hids : Ids c) (hn : c.heap.length < 2 ^ 32) (h : Told c)
    (hinv : Inv c) (e : ret c i = some c') : Told c' := by
  unfold ret at e
  cases hs : c.heap[i]? with
  | none => simp [hs] at e
  | some s =>
    rw [hs] at e
    dsimp only at e
    cases hh : s.h with
    | waiting => simp [hh] at e
    | done => simp [hh] at e
    | running =>
      simp only [hh, Option.some.injEq] at e
      subst e
      obtain ⟨o', e'⟩ := send_frame c (.close s.id)
      rw [e']
      exact h.keep (set_heap hs rfl id (by simp [Gone, hh])) rfl (.inl rfl)
    | returned =>
      simp only [hh, Option.some.injEq] at e
      subst e
      intro j t ht
      rcases set_cases hs ht with ⟨rfl, rfl⟩ | ⟨hne, ht⟩
      · exact .inr (.inl (.inl rfl))
      · rcases h j t ht with h | h | ⟨h, hx⟩ | h
        · exact .inl h
        · exact .inr (.inl h)
        · exact .inr (.inr (.inl ⟨mem_remove.2 ⟨h, fun e => hne (id_inj hids hn ht hs e)⟩, hx⟩))
        · exact .inr (.inr (.inr h))
    | deleted =>
      simp only [hh, Option.some.injEq] at e
      subst e
      exact h.keep (set_heap hs rfl id (by simp [Gone])) rfl (.inl rfl)
    | closed =>
      simp only [hh] at e
      split at e <;> simp only [Option.some.injEq] at e <;> subst e
      · exact h.keep (same_heap rfl) rfl (.inl rfl)
      · exact h.keep (set_heap hs rfl id (by simp [Gone])) rfl (.inl rfl)

theorem told_step {c c' : Conn} {a : Act} (hinv : Inv c) (hids : Ids c) (hn : c'.heap.length < 2 ^ 32) (h : Told c)
    (e : step c a = some c') : Told c' := by
  have hlen : c.heap.length ≤ c'.heap.length := by
    rcases effect_ids (step_effect hinv e) with ⟨h1, _⟩ | ⟨o, pk, _, hd, rfl⟩
    · have := congrArg List.length h1; simp at this; omega
    · rw [(create_heap hd).1]; simp
  have hn' : c.heap.length < 2 ^ 32 := by omega
  unfold step at e
  rw [if_neg (by simp [hinv.nocrash])] at e
  cases a with
  | read f =>
    dsimp only at e
    split at e <;> simp only [Option.some.injEq, reduceCtorEq] at e
    rename_i hp
    subst e
    have hpl : Plain c.pc := by simp [Plain, hp]
    have hpc : ∀ pc, pc ≠ .exited → Told { c with pc := pc } := fun pc hx =>
      h.keep (same_heap rfl) rfl (.inr ⟨hpl, hx⟩)
    unfold read
    split
    · repeat' split
      all_goals exact hpc _ (by simp)
    · split
      · exact h
      · rename_i hl; exact h.take hinv hids hn' hp hl (.inl rfl)
    · split
      · exact h
      · split
        · exact h
        · exact hpc _ (by simp)
    · split
      · exact h
      · rename_i hl; exact h.take hinv hids hn' hp hl (.inr rfl)
    · exact hpc _ (by simp)
    · exact h
  | tick => exact told_tick hinv hids hn h e
  | giveUp =>
    dsimp only at e
    cases hpc : c.pc <;> simp only [hpc, reduceCtorEq] at e
    split at e
    · simp at e
    split at e <;> simp only [Option.some.injEq, reduceCtorEq] at e
    subst e
    exact h.keep (same_heap rfl) rfl (.inr ⟨by simp [Plain, hpc], by simp⟩)
  | exit =>
    dsimp only at e
    split at e <;> simp only [Option.some.injEq, reduceCtorEq] at e
    rename_i hp
    subst e
    obtain ⟨heap', e', a, hall⟩ := exit_heap hinv hp
    rw [e']
    intro j t ht
    obtain ⟨t0, k1, k2, k3, k4⟩ := later_heap a j t ht
    rcases h j t0 k1 with h | h | ⟨h, hx⟩ | h
    · exact .inl (k3 h)
    · exact .inr (.inl (k4 h))
    · exact .inl (hall _ h t ht)
    · simp [hp] at h
  | close =>
    simp only [Option.some.injEq] at e
    subst e
    exact told_closeConn h
  | recv i =>
    dsimp only at e
    split at e
    · simp at e
    rename_i s hs
    split at e <;> try (simp at e; done)
    split at e <;> simp only [Option.some.injEq, reduceCtorEq] at e
    subst e
    exact h.keep (set_heap hs rfl id id) rfl (.inl rfl)
  | reply i p =>
    dsimp only at e
    split at e
    · simp at e
    rename_i s hs
    split at e <;> simp only [Option.some.injEq, reduceCtorEq] at e
    subst e
    obtain ⟨o', e'⟩ := send_frame c (.payload s.id p)
    rw [e']
    exact h.keep (same_heap rfl) rfl (.inl rfl)
  | ret i => exact told_ret hids hn' h hinv e
  | graceful =>
    dsimp only at e
    split at e <;> simp only [Option.some.injEq] at e <;> subst e <;>
      exact h.keep (same_heap rfl) rfl (.inl rfl)
  | drain k =>
    dsimp only at e
    unfold drain at e
    split at e
    · simp only [Option.some.injEq] at e
      subst e
      obtain ⟨o', e'⟩ := send_frame c (.goAway (c.next - 1))
      rw [e']
      exact h.keep (same_heap rfl) rfl (.inl rfl)
    · split at e <;> simp only [Option.some.injEq, reduceCtorEq] at e
      subst e
      exact told_closeConn (c := { c with gs := _ }) (h.keep (same_heap rfl) rfl (.inl rfl))
    · simp at e
  | timeout k =>
    dsimp only at e
    split at e <;> simp only [Option.some.injEq, reduceCtorEq] at e
    subst e
    exact told_closeConn (c := { c with gs := _ }) (h.keep (same_heap rfl) rfl (.inl rfl))

/-- **C56** When the read loop of a connection with fewer than 2^32 sessions has ended, the receive channel of every
session whose handler is still there (waiting for a place or running) is closed: no handler waits for ever for a
payload. -/
theorem C56_all_told {as : List Act} {b : Bool} {n : Nat} {c : Conn}
    (h : run as { allowPacking := b, maxRPC := n } = some c) (hn : c.heap.length < 2 ^ 32) (hx : c.pc = .exited)
    {i : Nat} {s : Sess} (hs : c.heap[i]? = some s) (hh : s.h = .waiting ∨ s.h = .running) : s.recvClosed = true := by
  have key := reach_induction (fun _ c => Ids c ∧ (c.heap.length < 2 ^ 32 → Told c)) (b := b) (n := n)
    ⟨⟨by simp, rfl⟩, fun _ => by intro i s hs; simp at hs⟩
    (fun as c a c' hi hp e => by
      have he := step_effect hi e
      refine ⟨ids_step hp.1 he, fun hn => told_step hi hp.1 hn (hp.2 ?_) e⟩
      rcases effect_ids he with ⟨h1, _⟩ | ⟨o, pk, _, hd, rfl⟩
      · have := congrArg List.length h1; simp at this; omega
      · rw [(create_heap hd).1] at hn; simp at hn; omega) h
  rcases key.2 hn i s hs with h | h | ⟨_, h⟩ | h
  · exact h
  · rcases hh with hh | hh <;> rw [hh] at h <;> simp [Gone] at h
  · exact absurd hx h
  · rw [hx] at h; simp at h

/-- Two sessions, one of them closed by the client; then the client goes away. -/
def hangUp : List Act :=
  [.read (.open 7 true true false), .tick, .tick, .tick, .read (.open 8 true true false), .tick, .tick, .tick,
   .read (.close 1), .tick, .close, .exit]

example : ∃ c, run hangUp {} = some c ∧ c.pc = .exited ∧ c.heap.map (fun s => (s.h, s.recvClosed)) =
    [(.running, true), (.running, true)] := ⟨_, rfl, by decide⟩

/-! ### C57 -/

theorem exit_maxRPC {c : Conn} (h : Inv c) (hp : c.pc = .idle) : (exit c).maxRPC = c.maxRPC := by
  obtain ⟨_, e, _⟩ := exit_heap h hp
  rw [e]

theorem send_maxRPC (c : Conn) (m : Sent) : (send c m).maxRPC = c.maxRPC := by
  obtain ⟨_, e⟩ := send_frame c m
  rw [e]

theorem closeConn_maxRPC (c : Conn) : (closeConn c).maxRPC = c.maxRPC := by
  obtain ⟨_, e, _⟩ := closeConn_heap c
  rw [e]

theorem closeRecv_maxRPC (c : Conn) (i : Nat) : (closeRecv c i).maxRPC = c.maxRPC := by
  unfold closeRecv; repeat' split
  all_goals rfl

theorem step_maxRPC {c c' : Conn} {a : Act} (hinv : Inv c) (e : step c a = some c') : c'.maxRPC = c.maxRPC := by
  unfold step at e
  rw [if_neg (by simp [hinv.nocrash])] at e
  cases a with
  | read f =>
    dsimp only at e
    split at e <;> simp only [Option.some.injEq, reduceCtorEq] at e
    subst e
    unfold read
    repeat' split
    all_goals rfl
  | tick =>
    dsimp only at e
    unfold tick at e
    cases hpc : c.pc <;> simp only [hpc, reduceCtorEq] at e
    case creating => simp only [Option.some.injEq] at e; subst e; unfold create; split <;> rfl
    case cancelling i =>
      simp only [Option.some.injEq] at e; subst e; obtain ⟨_, e', _⟩ := closeCancel_heap c i; rw [e']
    all_goals
      repeat' split at e
    all_goals first
      | (simp only [Option.some.injEq] at e; subst e; first | rfl | exact send_maxRPC _ _ | exact closeRecv_maxRPC _ _)
      | simp at e
  | giveUp =>
    dsimp only at e
    repeat' split at e
    all_goals first
      | (simp only [Option.some.injEq] at e; subst e; rfl)
      | simp at e
  | exit =>
    dsimp only at e
    split at e <;> simp only [Option.some.injEq, reduceCtorEq] at e
    rename_i hp
    subst e
    exact exit_maxRPC hinv hp
  | close => simp only [Option.some.injEq] at e; subst e; exact closeConn_maxRPC c
  | recv i =>
    dsimp only at e
    repeat' split at e
    all_goals first
      | (simp only [Option.some.injEq] at e; subst e; rfl)
      | simp at e
  | reply i p =>
    dsimp only at e
    repeat' split at e
    all_goals first
      | (simp only [Option.some.injEq] at e; subst e; exact send_maxRPC _ _)
      | simp at e
  | ret i =>
    dsimp only at e
    unfold ret at e
    repeat' split at e
    all_goals first
      | (simp only [Option.some.injEq] at e; subst e; first | rfl | exact send_maxRPC _ _)
      | simp at e
  | graceful =>
    dsimp only at e
    split at e <;> simp only [Option.some.injEq] at e <;> subst e <;> rfl
  | drain k =>
    dsimp only at e
    unfold drain at e
    repeat' split at e
    all_goals first
      | (simp only [Option.some.injEq] at e; subst e; first | exact send_maxRPC _ _ | exact closeConn_maxRPC _)
      | simp at e
  | timeout k =>
    dsimp only at e
    repeat' split at e
    all_goals first
      | (simp only [Option.some.injEq] at e; subst e; exact closeConn_maxRPC _)
      | simp at e

theorem busy_later {l l' : List Sess} (h : AllLater (fun _ => Eq) l l') : busy l' = busy l := by
  have : l'.map (·.h) = l.map (·.h) := by
    apply List.ext_getElem (by simp [h.1])
    intro i h1 h2
    simp only [List.length_map] at h1 h2
    simp only [List.getElem_map]
    exact (h.2 i l[i] l'[i] (by simp [h2]) (by simp [h1])).2.symm
  have key : ∀ l : List Sess, busy l = (l.map (·.h)).countP fun h => h ≠ .waiting ∧ h ≠ .done := by
    intro l; simp only [busy, List.countP_map]; rfl
  rw [key, key, this]

theorem busy_set {l : List Sess} {i : Nat} {s s' : Sess} (hs : l[i]? = some s)
    (h : (s'.h ≠ .waiting ∧ s'.h ≠ .done) → s.h ≠ .waiting ∧ s.h ≠ .done) : busy (l.set i s') ≤ busy l := by
  by_cases h' : s'.h ≠ .waiting ∧ s'.h ≠ .done
  · exact Nat.le_of_eq (countP_set_same _ l i s' s hs (by simp [h h', h']))
  · by_cases h2 : s.h ≠ .waiting ∧ s.h ≠ .done
    · have := countP_set_less (fun s : Sess => decide (s.h ≠ .waiting ∧ s.h ≠ .done)) l i s' s hs (decide_eq_true h2)
        (decide_eq_false h')
      unfold busy
      omega
    · exact Nat.le_of_eq (countP_set_same _ l i s' s hs (by rw [decide_eq_false h', decide_eq_false h2]))

theorem busy_set_le (l : List Sess) (i : Nat) (s' : Sess) : busy (l.set i s') ≤ busy l + 1 := by
  unfold busy
  induction l generalizing i with
  | nil => simp
  | cons a l ih =>
    cases i with
    | zero => simp only [List.set_cons_zero, List.countP_cons]; split <;> split <;> omega
    | succ i => simp only [List.set_cons_succ, List.countP_cons]; have := ih i; omega

/-- **C57** On a connection of a server that allows `n > 0` concurrent handlers, never more than `n` handlers run. -/
theorem C57_handler_limit_partial {as : List Act} {b : Bool} {n : Nat} {c : Conn}
    (h : run as { allowPacking := b, maxRPC := n } = some c) (hn : 0 < n) :
    (c.heap.filter fun s => s.h = .running).length ≤ n := by
  have key := reach_induction (fun _ c => c.maxRPC = n ∧ busy c.heap ≤ n) (b := b) (n := n) ⟨rfl, by simp [busy]⟩
    (fun as c a c' hi hp e => by
      refine ⟨(step_maxRPC hi e).trans hp.1, ?_⟩
      have hself : ∀ m, (send c m).heap = c.heap := by
        intro m; obtain ⟨o, e⟩ := send_frame c m; rw [e]
      cases step_effect hi e with
      | quiet hl => rw [busy_later hl]; exact hp.2
      | misc => exact Nat.le_trans (Nat.le_of_eq (congrArg busy (hself _))) hp.2
      | create hpc hd => rw [(create_heap hd).1]; simpa [busy] using hp.2
      | ack => exact Nat.le_trans (Nat.le_of_eq (congrArg busy (hself _))) hp.2
      | @start i s hpc hs hf =>
        rcases hf with hf | hf
        · have := hp.1; omega
        · have := busy_set_le c.heap i { s with h := .running }
          have := hp.1
          show busy (c.heap.set i { s with h := .running }) ≤ n
          omega
      | push hpc hs => exact Nat.le_trans (busy_set hs id) hp.2
      | reply => exact Nat.le_trans (Nat.le_of_eq (congrArg busy (hself _))) hp.2
      | ended hs hh => exact Nat.le_trans (busy_set hs (by simp [hh])) hp.2
      | unwind hs hl hh =>
        refine Nat.le_trans (busy_set hs ?_) hp.2
        rcases hh with ⟨e, _⟩ | ⟨e, _⟩ | ⟨e, _⟩ <;> simp [e]) h
  refine Nat.le_trans ?_ key.2
  rw [← List.countP_eq_length_filter]
  unfold busy
  apply List.countP_mono_left
  intro s _ hs
  simp at hs
  simp [hs]

/-- Three sessions where two may run: the third waits until the first handler has returned. -/
def threeOpens : List Act :=
  [.read (.open 7 true true false), .tick, .tick, .tick, .read (.open 8 true true false), .tick, .tick, .tick,
   .read (.open 9 true true false), .tick, .tick]

example : ∃ c, run threeOpens { maxRPC := 2 } = some c ∧ c.heap.map (·.h) = [.running, .running, .waiting] ∧
    step c .tick = none ∧ run [.ret 0, .ret 0, .ret 0, .ret 0, .tick] c ≠ none := ⟨_, rfl, by decide, by decide, by decide⟩

/-- What stays true while the first handler of `C57_limit_stalls` does not return. -/
structure Stalled (c : Conn) : Prop where
  pc : c.pc = .submitting 1
  run : ∃ s, c.heap[0]? = some s ∧ s.h = .running
  max : c.maxRPC = 1

theorem Stalled.step {c c' : Conn} {a : Act} (hinv : Inv c) (h : Stalled c) (ha : a ≠ .ret 0) (e : step c a = some c') :
    Stalled c' := by
  obtain ⟨s, hs, hh⟩ := h.run
  have hb : ¬ free c := by
    unfold free
    have : 0 < busy c.heap := List.countP_pos_iff.2 ⟨s, List.mem_of_getElem? hs, by simp [hh]⟩
    have := h.max
    omega
  have hself : ∀ m, (send c m).heap = c.heap := by
    intro m; obtain ⟨o, e⟩ := send_frame c m; rw [e]
  have hselfp : ∀ m, (send c m).pc = c.pc := by
    intro m; obtain ⟨o, e⟩ := send_frame c m; rw [e]
  have hpc := h.pc
  refine ⟨?_, ?_, (step_maxRPC hinv e).trans h.max⟩
  · cases step_effect hinv e with
    | quiet _ _ _ _ _ _ _ hp =>
      rcases hp with hp | ⟨_, hp, _⟩ | ⟨hp, _⟩ | ⟨_, hp⟩ | ⟨i, hp, _⟩ | ⟨o, pk, hp, _⟩
      · exact hp.trans hpc
      · exact absurd hpc (hp 1)
      all_goals (rw [hpc] at hp; simp at hp)
    | misc _ hp =>
      rcases hp with hp | ⟨_, hp, _⟩
      · exact hp.trans hpc
      · exact absurd hpc (hp 1)
    | create hp => rw [hpc] at hp; simp at hp
    | ack hp => rw [hpc] at hp; simp at hp
    | start hp hs hf => exact absurd hf hb
    | push hp => rw [hpc] at hp; simp at hp
    | reply => rw [hselfp]; exact hpc
    | ended => exact (hselfp _).trans hpc
    | unwind => exact hpc
  · have set0 : ∀ (i : Nat) (t t' : Sess), c.heap[i]? = some t → (i = 0 → t'.h = .running) →
        ∃ s, (c.heap.set i t')[0]? = some s ∧ s.h = .running := by
      intro i t t' ht h0
      by_cases hi : i = 0
      · subst hi
        exact ⟨t', List.getElem?_set_self (List.getElem?_eq_some_iff.1 ht).1, h0 rfl⟩
      · exact ⟨s, by rw [List.getElem?_set_ne hi]; exact hs, hh⟩
    cases step_effect hinv e with
    | quiet hl =>
      have hlt : 0 < c'.heap.length := by rw [hl.1]; exact (List.getElem?_eq_some_iff.1 hs).1
      exact ⟨c'.heap[0], by simp [hlt], (hl.2 0 s _ hs (by simp [hlt])).2.symm.trans hh⟩
    | misc => exact ⟨s, by rw [hself]; exact hs, hh⟩
    | create hp => rw [hpc] at hp; simp at hp
    | ack hp => rw [hpc] at hp; simp at hp
    | start hp hs hf => exact absurd hf hb
    | push hp => rw [hpc] at hp; simp at hp
    | reply => exact ⟨s, by rw [hself]; exact hs, hh⟩
    | @ended i t ht => exact set0 i t _ ht (fun h0 => absurd (by rw [h0]) ha)
    | @unwind i t t' m wg ht hl hx =>
      refine set0 i t _ ht (fun h0 => absurd (by rw [h0]) ha)

/-- One session runs and waits for its payload, the client has opened another one (and has the OpenAck). -/
def oneTooMany : List Act :=
  [.read (.open 7 true true false), .tick, .tick, .tick, .read (.open 8 true true false), .tick, .tick]

/-- C57: the limit is enforced in the read loop. With a limit of one, a second accepted session stops the connection:
as long as the first handler does not return by itself, no further frame is read, neither the payload the handler
waits for nor a Close or Cancel of its session. -/
theorem C57_limit_stalls : ∃ c, run oneTooMany { maxRPC := 1 } = some c ∧
    ackIds c.out = [1, 2] ∧ (∃ s, c.heap[0]? = some s ∧ s.h = .running ∧ s.queue = [] ∧ s.recvClosed = false) ∧
    ∀ as c', Act.ret 0 ∉ as → run as c = some c' → ∀ f, step c' (.read f) = none := by
  refine ⟨_, rfl, by decide, ⟨_, rfl, by decide, by decide, by decide⟩, ?_⟩
  intro as c' ha e f
  have key : ∀ (as : List Act) (c c' : Conn), Inv c → Stalled c → Act.ret 0 ∉ as → run as c = some c' → Stalled c' := by
    intro as
    induction as with
    | nil => intro c c' _ h _ e; simp [run] at e; exact e ▸ h
    | cons a as ih =>
      intro c c' hi h ha e
      simp only [run, Option.bind_eq_some_iff] at e
      obtain ⟨d, e1, e2⟩ := e
      simp only [List.mem_cons, not_or] at ha
      exact ih d c' (hi.step e1) (h.step hi (fun e => ha.1 e.symm) e1) ha.2 e2
  have := key as _ c' (Inv.run oneTooMany (Inv.init false 1) rfl) ⟨rfl, ⟨_, rfl, rfl⟩, rfl⟩ ha e
  unfold step
  split
  · rfl
  · simp [this.pc]

end Claw.SrvConn
