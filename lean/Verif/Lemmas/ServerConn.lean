import Verif.Model.ServerConn

/-!
# The invariant of a server connection
-/

namespace Claw.SrvConn

open Claw

set_option linter.unusedSimpArgs false

theorem countP_set_same (p : α → Bool) : ∀ (l : List α) (i : Nat) (a b : α), l[i]? = some b → p a = p b →
    (l.set i a).countP p = l.countP p
  | [], _, _, _, h, _ => by simp at h
  | x :: l, 0, a, b, h, hp => by simp at h; subst h; simp [List.countP_cons, hp]
  | x :: l, i + 1, a, b, h, hp => by
    simp only [List.set_cons_succ, List.countP_cons]
    rw [countP_set_same p l i a b (by simpa using h) hp]

theorem countP_set_less (p : α → Bool) : ∀ (l : List α) (i : Nat) (a b : α), l[i]? = some b → p b = true →
    p a = false → (l.set i a).countP p + 1 = l.countP p
  | [], _, _, _, h, _, _ => by simp at h
  | x :: l, 0, a, b, h, hb, ha => by simp at h; subst h; simp [List.countP_cons, hb, ha]
  | x :: l, i + 1, a, b, h, hb, ha => by
    simp only [List.set_cons_succ, List.countP_cons]
    have := countP_set_less p l i a b (by simpa using h) hb ha
    omega

theorem lookup_mem {m : List (UInt32 × Nat)} {id : UInt32} {i : Nat} (h : lookup m id = some i) : (id, i) ∈ m := by
  simp only [lookup, Option.map_eq_some_iff] at h
  obtain ⟨e, h1, h2⟩ := h
  have := List.find?_some h1
  simp at this
  have hm := List.mem_of_find?_eq_some h1
  rw [← h2, ← this]
  exact hm

theorem mem_remove {m : List (UInt32 × Nat)} {id : UInt32} {e : UInt32 × Nat} :
    e ∈ remove m id ↔ e ∈ m ∧ e.1 ≠ id := by simp [remove]

theorem mem_insert {m : List (UInt32 × Nat)} {id : UInt32} {i : Nat} {e : UInt32 × Nat} :
    e ∈ insert m id i ↔ (e ∈ m ∧ e.1 ≠ id) ∨ e = (id, i) := by simp [insert, mem_remove]

/-- Handlers that have not called `Done`. -/
def unfinished (heap : List Sess) : Nat := heap.countP fun s => s.h ≠ .done

theorem unfinished_same {heap : List Sess} {i : Nat} {s s' : Sess} (hs : heap[i]? = some s)
    (hd : (s'.h ≠ .done) = (s.h ≠ .done)) : unfinished (heap.set i s') = unfinished heap :=
  countP_set_same _ heap i s' s hs (by simp only [hd])

theorem unfinished_less {heap : List Sess} {i : Nat} {s s' : Sess} (hs : heap[i]? = some s) (h1 : s.h ≠ .done)
    (h2 : s'.h = .done) : unfinished (heap.set i s') + 1 = unfinished heap :=
  countP_set_less _ heap i s' s hs (by simp [h1]) (by simp [h2])

/-- What `pc` promises. -/
def PcOk (c : Conn) : Prop :=
  match c.pc with
  | .sending i _ => ∃ s, c.heap[i]? = some s ∧ s.recvClosed = false
  | .closing i => ∃ s, c.heap[i]? = some s ∧ s.recvClosed = false ∧ ∀ e ∈ c.sessions, e.2 ≠ i
  | .cancelling i => ∃ s, c.heap[i]? = some s ∧ s.recvClosed = false ∧ ∀ e ∈ c.sessions, e.2 ≠ i
  | .cancelled i => ∃ s, c.heap[i]? = some s ∧ s.recvClosed = false ∧ ∀ e ∈ c.sessions, e.2 ≠ i
  | .acking _ i => ∃ s, c.heap[i]? = some s ∧ s.h = .waiting
  | .submitting i => ∃ s, c.heap[i]? = some s ∧ s.h = .waiting
  | _ => True

structure Inv (c : Conn) : Prop where
  /-- a session object is in the map under its identifier only, and its channel is open until the read loop ends -/
  objs : ∀ e ∈ c.sessions, ∃ s, c.heap[e.2]? = some s ∧ s.id = e.1 ∧ (c.pc ≠ .exited → s.recvClosed = false)
  nodup : (c.sessions.map (·.2)).Nodup
  pcok : PcOk c
  wg : c.wg = unfinished c.heap
  /-- as long as a call of `GracefulClose` that found the connection open is there, the connection is draining -/
  drain : ∀ g ∈ c.gs, g ≠ .early → c.draining = true
  fin : .finished ∈ c.gs → c.wg = 0
  nocrash : c.crashed = false

/-- Change a session object, but not its identifier, its channel or whether it has finished. -/
theorem Inv.setSess {c : Conn} (h : Inv c) {i : Nat} {s s' : Sess} (hs : c.heap[i]? = some s) (hid : s'.id = s.id)
    (hr : s'.recvClosed = s.recvClosed) (hd : (s'.h ≠ .done) = (s.h ≠ .done)) (hw : (s.h = .waiting → s'.h = .waiting) ∨ c.pc = .idle) :
    Inv { c with heap := c.heap.set i s' } := by
  have hi := (List.getElem?_eq_some_iff.1 hs).1
  have hget : ∀ (j : Nat) (t : Sess), c.heap[j]? = some t → ∃ t' : Sess, (c.heap.set i s')[j]? = some t' ∧
      t'.id = t.id ∧ t'.recvClosed = t.recvClosed ∧ ((t.h = .waiting → t'.h = .waiting) ∨ c.pc = .idle) := by
    intro j t ht
    by_cases hj : i = j
    · subst hj
      rw [hs] at ht
      cases ht
      exact ⟨s', by simp [hi], hid, hr, hw⟩
    · exact ⟨t, by rw [List.getElem?_set_ne hj]; exact ht, rfl, rfl, .inl id⟩
  constructor
  · intro e he
    obtain ⟨t, h1, h2, h3⟩ := h.objs e he
    obtain ⟨t', g1, g2, g3, _⟩ := hget _ _ h1
    exact ⟨t', g1, by rw [g2, h2], fun hp => by rw [g3]; exact h3 hp⟩
  · exact h.nodup
  · have hp := h.pcok
    unfold PcOk at hp ⊢
    dsimp only at hp ⊢
    cases hpc : c.pc <;> simp only [hpc] at hp ⊢
    all_goals first
      | (obtain ⟨t, h1, h2, h3⟩ := hp
         obtain ⟨t', g1, g2, g3, g4⟩ := hget _ _ h1
         exact ⟨t', g1, by rw [g3]; exact h2, h3⟩)
      | (obtain ⟨t, h1, h2⟩ := hp
         obtain ⟨t', g1, g2, g3, g4⟩ := hget _ _ h1
         exact ⟨t', g1, by first | (rw [g3]; exact h2) | exact (g4.resolve_right (by simp_all)) h2⟩)
      | trivial
  · show c.wg = unfinished _
    exact h.wg.trans (unfinished_same hs hd).symm
  · exact h.drain
  · exact h.fin
  · exact h.nocrash

theorem Inv.closeCancel {c : Conn} (h : Inv c) (i : Nat) : Inv (closeCancel c i) := by
  unfold SrvConn.closeCancel
  split
  · exact h
  · rename_i s hs
    exact h.setSess hs rfl rfl rfl (.inl id)

theorem closeCancel_frame (c : Conn) (i : Nat) : (closeCancel c i).pc = c.pc ∧ (closeCancel c i).sessions = c.sessions ∧
    (closeCancel c i).gs = c.gs ∧ (closeCancel c i).draining = c.draining ∧ (closeCancel c i).wg = c.wg ∧
    (closeCancel c i).heap.map (fun s => (s.id, s.queue, s.recvClosed, s.h, s.got)) =
      c.heap.map (fun s => (s.id, s.queue, s.recvClosed, s.h, s.got)) := by
  unfold closeCancel
  split
  · simp
  · rename_i s hs
    refine ⟨rfl, rfl, rfl, rfl, rfl, ?_⟩
    apply List.ext_getElem?
    intro j
    by_cases hj : i = j
    · subst hj
      rw [List.getElem?_map, List.getElem?_map, List.getElem?_set_self (List.getElem?_eq_some_iff.1 hs).1, hs]; rfl
    · simp [List.getElem?_set_ne hj]

theorem Inv.closeAll {l : List (UInt32 × Nat)} : ∀ {c : Conn}, Inv c → Inv (l.foldl (fun c e => SrvConn.closeCancel c e.2) c) := by
  induction l with
  | nil => intro c h; exact h
  | cons e l ih => intro c h; exact ih (h.closeCancel e.2)

theorem Inv.closeConn {c : Conn} (h : Inv c) : Inv (closeConn c) := by
  unfold SrvConn.closeConn
  split
  · exact h
  · exact Inv.closeAll ⟨h.objs, h.nodup, h.pcok, h.wg, h.drain, h.fin, h.nocrash⟩

theorem send_frame (c : Conn) (m : Sent) : ∃ o, send c m = { c with out := o } := by
  unfold send
  split
  · exact ⟨c.out, rfl⟩
  · exact ⟨_, rfl⟩

theorem Inv.out {c : Conn} (h : Inv c) (o : List (Sent × Bool)) : Inv { c with out := o } :=
  ⟨h.objs, h.nodup, h.pcok, h.wg, h.drain, h.fin, h.nocrash⟩

theorem Inv.send {c : Conn} (h : Inv c) (m : Sent) : Inv (send c m) := by
  obtain ⟨o, e⟩ := send_frame c m
  rw [e]; exact h.out o

/-- The read loop goes somewhere else. -/
theorem Inv.goto {c : Conn} (h : Inv c) (pc : RPc) (hx : c.pc ≠ .exited) (hp : PcOk { c with pc := pc }) :
    Inv { c with pc := pc } :=
  ⟨fun e he => by
    obtain ⟨s, h1, h2, h3⟩ := h.objs e he
    exact ⟨s, h1, h2, fun _ => h3 hx⟩, h.nodup, hp, h.wg, h.drain, h.fin, h.nocrash⟩

/-- A session leaves the map. -/
theorem Inv.drop {c : Conn} (h : Inv c) (id : UInt32) : Inv { c with sessions := remove c.sessions id } := by
  refine ⟨fun e he => h.objs e (mem_remove.1 he).1, ?_, ?_, h.wg, h.drain, h.fin, h.nocrash⟩
  · exact h.nodup.sublist (List.filter_sublist.map _)
  · have hp := h.pcok
    unfold PcOk at hp ⊢
    dsimp only at hp ⊢
    cases hpc : c.pc <;> simp only [hpc] at hp ⊢
    all_goals first
      | (obtain ⟨t, h1, h2, h3⟩ := hp
         exact ⟨t, h1, h2, fun e he => h3 e (mem_remove.1 he).1⟩)
      | exact hp
      | trivial

/-- Closing the channel of an object that is not in the map. -/
theorem Inv.closeRecv {c : Conn} (h : Inv c) {i : Nat} {s : Sess} (hs : c.heap[i]? = some s) (hr : s.recvClosed = false)
    (hn : ∀ e ∈ c.sessions, e.2 ≠ i) (hx : c.pc ≠ .exited) : Inv { SrvConn.closeRecv c i with pc := .idle } := by
  have hi := (List.getElem?_eq_some_iff.1 hs).1
  unfold SrvConn.closeRecv
  rw [hs]
  simp only [hr, Bool.false_eq_true, if_false]
  constructor
  · intro e he
    obtain ⟨t, h1, h2, h3⟩ := h.objs e he
    exact ⟨t, by rw [List.getElem?_set_ne (fun hh => hn e he hh.symm)]; exact h1, h2, fun _ => h3 hx⟩
  · exact h.nodup
  · trivial
  · show c.wg = unfinished _
    exact h.wg.trans (unfinished_same (s' := { s with recvClosed := true }) hs rfl).symm
  · exact h.drain
  · exact h.fin
  · exact h.nocrash

/-- The end of the read loop closes every channel in the map once. -/
theorem exit_all : ∀ (l : List (UInt32 × Nat)) (c : Conn), c.crashed = false → (l.map (·.2)).Nodup →
    (∀ e ∈ l, ∃ s, c.heap[e.2]? = some s ∧ s.recvClosed = false) →
    ∃ heap', l.foldl (fun c e => closeRecv c e.2) c = { c with heap := heap' } ∧
      (∀ (j : Nat) s, c.heap[j]? = some s → ∃ s', heap'[j]? = some s' ∧ s'.id = s.id ∧ s'.h = s.h ∧ s'.got = s.got ∧
        s'.queue = s.queue ∧ s'.cancelClosed = s.cancelClosed ∧ (s.recvClosed = true → s'.recvClosed = true)) ∧
      (∀ e ∈ l, ∀ s, heap'[e.2]? = some s → s.recvClosed = true) ∧ heap'.length = c.heap.length ∧
      unfinished heap' = unfinished c.heap
  | [], c, _, _, _ => ⟨c.heap, rfl, fun j s hs => ⟨s, hs, rfl, rfl, rfl, rfl, rfl, id⟩, by simp, rfl, rfl⟩
  | e :: l, c, hc, hn, ho => by
    obtain ⟨s, h1, h2⟩ := ho e (by simp)
    have hi := (List.getElem?_eq_some_iff.1 h1).1
    simp only [List.map_cons, List.nodup_cons] at hn
    have e1 : closeRecv c e.2 = { c with heap := c.heap.set e.2 { s with recvClosed := true } } := by
      unfold closeRecv; rw [h1]; simp [h2]
    have ho' : ∀ e' ∈ l, ∃ s', (c.heap.set e.2 { s with recvClosed := true })[e'.2]? = some s' ∧ s'.recvClosed = false := by
      intro e' he'
      obtain ⟨t, g1, g2⟩ := ho e' (by simp [he'])
      have hne : e.2 ≠ e'.2 := fun hh => hn.1 (List.mem_map.2 ⟨e', he', hh.symm⟩)
      exact ⟨t, by rw [List.getElem?_set_ne hne]; exact g1, g2⟩
    obtain ⟨heap', k1, k2, k3, k4, k5⟩ := exit_all l { c with heap := c.heap.set e.2 { s with recvClosed := true } } hc hn.2 ho'
    refine ⟨heap', by rw [List.foldl_cons, e1, k1], ?_, ?_, by rw [k4]; simp, ?_⟩
    · intro j t ht
      by_cases hj : e.2 = j
      · subst hj
        rw [h1] at ht
        cases ht
        obtain ⟨s', q1, q2, q3, q4, q5, q6, q7⟩ := k2 e.2 { s with recvClosed := true } (by simp [hi])
        exact ⟨s', q1, q2, q3, q4, q5, q6, fun _ => q7 rfl⟩
      · obtain ⟨s', q⟩ := k2 j t (by show (c.heap.set _ _)[j]? = _; rw [List.getElem?_set_ne hj]; exact ht)
        exact ⟨s', q⟩
    · intro e' he' t ht
      rcases List.mem_cons.1 he' with rfl | he'
      · obtain ⟨s', q1, q2, q3, q4, q5, q6, q7⟩ := k2 e'.2 { s with recvClosed := true } (by simp [hi])
        rw [ht] at q1
        cases q1
        exact q7 rfl
      · exact k3 e' he' t ht
    · rw [k5]
      exact unfinished_same h1 rfl

theorem Inv.exit {c : Conn} (h : Inv c) (hp : c.pc = .idle) : Inv (exit c) := by
  have hx : c.pc ≠ .exited := by rw [hp]; simp
  obtain ⟨heap', k1, k2, k3, k4, k5⟩ := exit_all c.sessions { c with pc := .exited } h.nocrash h.nodup
    (fun e he => by
      obtain ⟨s, h1, _, h3⟩ := h.objs e he
      exact ⟨s, h1, h3 hx⟩)
  unfold SrvConn.exit
  rw [k1]
  constructor
  · intro e he
    obtain ⟨s, h1, h2, h3⟩ := h.objs e he
    obtain ⟨s', q1, q2, _⟩ := k2 _ _ h1
    exact ⟨s', q1, by rw [q2, h2], fun hh => absurd rfl hh⟩
  · exact h.nodup
  · trivial
  · show c.wg = unfinished _
    rw [k5]; exact h.wg
  · exact h.drain
  · exact h.fin
  · exact h.nocrash

theorem Inv.read {c : Conn} (h : Inv c) (hp : c.pc = .idle) (f : Frame) : Inv (read c f) := by
  have hx : c.pc ≠ .exited := by rw [hp]; simp
  have hrem : ∀ id i, lookup c.sessions id = some i → ∃ s, c.heap[i]? = some s ∧ s.recvClosed = false ∧
      ∀ e ∈ remove c.sessions id, e.2 ≠ i := by
    intro id i hl
    have hm := lookup_mem hl
    obtain ⟨s, h1, h2, h3⟩ := h.objs _ hm
    refine ⟨s, h1, h3 hx, fun e he hi => ?_⟩
    obtain ⟨he1, he2⟩ := mem_remove.1 he
    obtain ⟨t, g1, g2, _⟩ := h.objs e he1
    rw [hi, h1] at g1
    cases g1
    exact he2 (g2.symm.trans h2)
  unfold SrvConn.read
  split
  · split
    · exact h.goto _ hx trivial
    · split
      · exact h.goto _ hx trivial
      · split
        · exact h.goto _ hx trivial
        · exact h.goto _ hx trivial
  · split
    · exact h
    · rename_i i hl
      exact (h.drop _).goto _ hx (hrem _ _ hl)
  · split
    · exact h
    · rename_i i hl
      split
      · exact h
      · obtain ⟨s, h1, h2, _⟩ := hrem _ _ hl
        exact h.goto _ hx ⟨s, h1, h2⟩
  · split
    · exact h
    · rename_i i hl
      exact (h.drop _).goto _ hx (hrem _ _ hl)
  · exact h.goto _ hx trivial
  · exact h

theorem Inv.create {c : Conn} (h : Inv c) {o : UInt32} {packing : Bool} (hx : c.pc ≠ .exited) : Inv (create c o packing) := by
  unfold SrvConn.create
  split
  · exact h.goto _ hx trivial
  · rename_i hd
    have hget : ∀ (j : Nat) s, c.heap[j]? = some s → (c.heap ++ [({ id := c.next } : Sess)])[j]? = some s := by
      intro j s hs
      rw [List.getElem?_append_left (List.getElem?_eq_some_iff.1 hs).1]; exact hs
    have hnew : (c.heap ++ [({ id := c.next } : Sess)])[c.heap.length]? = some { id := c.next } := by simp
    constructor
    · intro e he
      rcases mem_insert.1 he with ⟨he, _⟩ | rfl
      · obtain ⟨s, h1, h2, h3⟩ := h.objs e he
        exact ⟨s, hget _ _ h1, h2, fun _ => h3 hx⟩
      · exact ⟨_, hnew, rfl, fun _ => rfl⟩
    · show ((SrvConn.insert c.sessions c.next c.heap.length).map (·.2)).Nodup
      rw [SrvConn.insert, List.map_append, List.nodup_append]
      refine ⟨h.nodup.sublist (List.filter_sublist.map _), by simp, ?_⟩
      intro a ha b hb
      simp at hb
      subst hb
      obtain ⟨e, he, rfl⟩ := List.mem_map.1 ha
      obtain ⟨s, h1, _⟩ := h.objs e (mem_remove.1 he).1
      have := (List.getElem?_eq_some_iff.1 h1).1
      omega
    · exact ⟨_, hnew, rfl⟩
    · show c.wg + 1 = unfinished _
      rw [h.wg]; simp [unfinished]
    · intro g hg hne
      exact absurd (h.drain g hg hne) hd
    · intro hf
      exact absurd (h.drain _ hf (by simp)) hd
    · exact h.nocrash

theorem Inv.tick {c c' : Conn} (h : Inv c) (e : tick c = some c') : Inv c' := by
  have hp := h.pcok
  unfold PcOk at hp
  unfold SrvConn.tick at e
  cases hpc : c.pc with
  | idle => rw [hpc] at e; simp at e
  | exited => rw [hpc] at e; simp at e
  | rejecting o =>
    rw [hpc] at e; simp at e; subst e
    exact (h.send _).goto _ (by obtain ⟨o, e⟩ := send_frame c (.ack o 0 false false); rw [e]; simp [hpc]) trivial
  | creating o p =>
    rw [hpc] at e; simp at e; subst e
    exact h.create (by simp [hpc])
  | acking o i =>
    rw [hpc] at e hp
    obtain ⟨s, h1, h2⟩ := hp
    simp only [h1, Option.some.injEq] at e
    subst e
    obtain ⟨o', e'⟩ := send_frame c (.ack o s.id true c.packing)
    rw [e']
    exact (h.out o').goto _ (by simp [hpc]) ⟨s, h1, h2⟩
  | submitting i =>
    rw [hpc] at e hp
    obtain ⟨s, h1, h2⟩ := hp
    simp only [h1] at e
    split at e <;> simp only [Option.some.injEq, reduceCtorEq] at e
    subst e
    exact (h.goto .idle (by simp [hpc]) trivial).setSess (s' := { s with h := .running }) h1 rfl rfl (by simp [h2])
      (.inr rfl)
  | sending i p =>
    rw [hpc] at e hp
    obtain ⟨s, h1, h2⟩ := hp
    simp only [h1] at e
    rw [if_neg (by simp [h2])] at e
    split at e
    · simp only [Option.some.injEq] at e; subst e
      exact (h.goto .idle (by simp [hpc]) trivial).setSess (s' := { s with queue := s.queue ++ [p] }) h1 rfl rfl rfl (.inl id)
    · simp at e
  | closing i =>
    rw [hpc] at e hp; simp at e; subst e
    obtain ⟨s, h1, h2, h3⟩ := hp
    exact h.closeRecv h1 h2 h3 (by simp [hpc])
  | cancelled i =>
    rw [hpc] at e hp; simp at e; subst e
    obtain ⟨s, h1, h2, h3⟩ := hp
    exact h.closeRecv h1 h2 h3 (by simp [hpc])
  | cancelling i =>
    rw [hpc] at e hp; simp at e; subst e
    obtain ⟨s, h1, h2, h3⟩ := hp
    have hi := (List.getElem?_eq_some_iff.1 h1).1
    refine (h.closeCancel i).goto _ (by rw [(closeCancel_frame c i).1, hpc]; simp) ?_
    refine ⟨{ s with cancelClosed := true }, ?_, h2, ?_⟩
    · show (SrvConn.closeCancel c i).heap[i]? = _
      unfold SrvConn.closeCancel
      rw [h1]; simp [hi]
    · show ∀ e ∈ (SrvConn.closeCancel c i).sessions, _
      rw [(closeCancel_frame c i).2.1]; exact h3
  | ponging n =>
    rw [hpc] at e; simp at e; subst e
    exact (h.send _).goto _ (by obtain ⟨o, e⟩ := send_frame c (.pong n); rw [e]; simp [hpc]) trivial

theorem Inv.ret {c c' : Conn} (h : Inv c) {i : Nat} (e : ret c i = some c') : Inv c' := by
  unfold SrvConn.ret at e
  cases hs : c.heap[i]? with
  | none => simp [hs] at e
  | some s =>
    rw [hs] at e
    dsimp only at e
    cases hh : s.h with
    | waiting => rw [hh] at e; simp at e
    | done => rw [hh] at e; simp at e
    | running =>
      rw [hh] at e
      simp only [Option.some.injEq] at e
      subst e
      obtain ⟨o, e'⟩ := send_frame c (.close s.id)
      rw [e']
      exact (h.out o).setSess (s' := { s with h := .returned }) hs rfl rfl (by simp [hh]) (.inl (by simp [hh]))
    | returned =>
      rw [hh] at e
      simp only [Option.some.injEq] at e
      subst e
      exact (h.drop s.id).setSess (s' := { s with h := .deleted }) hs rfl rfl (by simp [hh]) (.inl (by simp [hh]))
    | deleted =>
      rw [hh] at e
      simp only [Option.some.injEq] at e
      subst e
      exact h.setSess (s' := { s with cancelClosed := true, h := .closed }) hs rfl rfl (by simp [hh]) (.inl (by simp [hh]))
    | closed =>
      rw [hh] at e
      dsimp only at e
      have hl := unfinished_less (s' := { s with h := .done }) hs (by simp [hh]) rfl
      have hw := h.wg
      rw [if_neg (by omega)] at e
      simp only [Option.some.injEq] at e
      subst e
      have hp := h.pcok
      have hget : ∀ (j : Nat) (t : Sess), c.heap[j]? = some t → ∃ t' : Sess, (c.heap.set i { s with h := .done })[j]? = some t' ∧
          t'.id = t.id ∧ t'.recvClosed = t.recvClosed ∧ (t.h = .waiting → t'.h = .waiting) := by
        intro j t ht
        by_cases hj : i = j
        · subst hj
          rw [hs] at ht
          cases ht
          exact ⟨{ s with h := .done }, by simp [(List.getElem?_eq_some_iff.1 hs).1], rfl, rfl, by simp [hh]⟩
        · exact ⟨t, by rw [List.getElem?_set_ne hj]; exact ht, rfl, rfl, id⟩
      constructor
      · intro e he
        obtain ⟨t, h1, h2, h3⟩ := h.objs e he
        obtain ⟨t', g1, g2, g3, _⟩ := hget _ _ h1
        exact ⟨t', g1, by rw [g2, h2], fun hp => by rw [g3]; exact h3 hp⟩
      · exact h.nodup
      · unfold PcOk at hp ⊢
        dsimp only at hp ⊢
        cases hpc : c.pc <;> simp only [hpc] at hp ⊢
        all_goals first
          | (obtain ⟨t, h1, h2, h3⟩ := hp
             obtain ⟨t', g1, g2, g3, g4⟩ := hget _ _ h1
             exact ⟨t', g1, by rw [g3]; exact h2, h3⟩)
          | (obtain ⟨t, h1, h2⟩ := hp
             obtain ⟨t', g1, g2, g3, g4⟩ := hget _ _ h1
             exact ⟨t', g1, by first | (rw [g3]; exact h2) | exact g4 h2⟩)
          | trivial
      · show c.wg - 1 = unfinished (c.heap.set i { s with h := .done })
        omega
      · exact h.drain
      · intro hf
        show c.wg - 1 = 0
        have := h.fin hf
        omega
      · exact h.nocrash

/-- A call of `GracefulClose` goes on. -/
theorem Inv.setG {c : Conn} (h : Inv c) {k : Nat} {g g' : GPc} (hg : c.gs[k]? = some g) (hne : g ≠ .early)
    (hf : g' = .finished → c.wg = 0) : Inv { c with gs := c.gs.set k g' } := by
  refine ⟨h.objs, h.nodup, h.pcok, h.wg, ?_, ?_, h.nocrash⟩
  · intro x hx hxe
    exact h.drain g (List.mem_of_getElem? hg) hne
  · intro hx
    rcases List.mem_or_eq_of_mem_set hx with hx | hx
    · exact h.fin hx
    · exact hf hx.symm

theorem Inv.step {c c' : Conn} {a : Act} (h : Inv c) (e : step c a = some c') : Inv c' := by
  unfold SrvConn.step at e
  rw [if_neg (by simp [h.nocrash])] at e
  cases a with
  | read f =>
    dsimp only at e
    split at e
    · rename_i hp
      simp only [Option.some.injEq] at e; subst e
      exact h.read hp f
    · simp at e
  | tick => exact h.tick e
  | giveUp =>
    dsimp only at e
    split at e
    · rename_i i p hp
      split at e
      · simp at e
      · split at e
        · simp only [Option.some.injEq] at e; subst e
          exact h.goto _ (by simp [hp]) trivial
        · simp at e
    · simp at e
  | exit =>
    dsimp only at e
    split at e
    · rename_i hp
      simp only [Option.some.injEq] at e; subst e
      exact h.exit hp
    · simp at e
  | close => simp only [Option.some.injEq] at e; subst e; exact h.closeConn
  | recv i =>
    dsimp only at e
    split at e
    · simp at e
    · rename_i s hs
      split at e
      · rename_i hh
        split at e
        · simp at e
        · simp only [Option.some.injEq] at e; subst e
          exact h.setSess hs rfl rfl rfl (.inl (by simp [hh]))
      · simp at e
  | reply i p =>
    dsimp only at e
    split at e
    · simp at e
    · split at e
      · simp only [Option.some.injEq] at e; subst e; exact h.send _
      · simp at e
  | ret i => exact h.ret e
  | graceful =>
    dsimp only at e
    split at e
    · simp only [Option.some.injEq] at e; subst e
      refine ⟨h.objs, h.nodup, h.pcok, h.wg, ?_, ?_, h.nocrash⟩
      · intro g hg hne
        simp only [List.mem_append, List.mem_singleton] at hg
        rcases hg with hg | hg
        · exact h.drain g hg hne
        · exact absurd hg hne
      · intro hf
        simp only [List.mem_append, List.mem_singleton, reduceCtorEq, or_false] at hf
        exact h.fin hf
    · simp only [Option.some.injEq] at e; subst e
      refine ⟨h.objs, h.nodup, h.pcok, h.wg, fun _ _ _ => rfl, ?_, h.nocrash⟩
      intro hf
      simp only [List.mem_append, List.mem_singleton, reduceCtorEq, or_false] at hf
      exact h.fin hf
  | drain k =>
    dsimp only at e
    unfold SrvConn.drain at e
    split at e
    · rename_i hg
      simp only [Option.some.injEq] at e; subst e
      obtain ⟨o, e'⟩ := send_frame c (.goAway (c.next - 1))
      rw [e']
      exact (h.out o).setG (g' := .waiting) hg (by simp) (by simp)
    · rename_i hg
      split at e
      · rename_i hw
        simp only [Option.some.injEq] at e; subst e
        exact (h.setG (g' := .finished) hg (by simp) (fun _ => hw)).closeConn
      · simp at e
    · simp at e
  | timeout k =>
    dsimp only at e
    split at e
    · rename_i hg
      simp only [Option.some.injEq] at e; subst e
      exact (h.setG (g' := .timedOut) hg (by simp) (by simp)).closeConn
    · simp at e

theorem Inv.run : ∀ (as : List Act) {c c' : Conn}, Inv c → run as c = some c' → Inv c'
  | [], c, c', h, e => by simp [SrvConn.run] at e; exact e ▸ h
  | a :: as, c, c', h, e => by
    simp only [SrvConn.run, Option.bind_eq_some_iff] at e
    obtain ⟨d, e1, e2⟩ := e
    exact Inv.run as (h.step e1) e2

theorem Inv.init (allow : Bool) (n : Nat) : Inv { allowPacking := allow, maxRPC := n } := by
  constructor <;> simp [unfinished, PcOk]

end Claw.SrvConn
