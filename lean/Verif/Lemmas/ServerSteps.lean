import Verif.Lemmas.ServerConn

/-!
# What one action of a server connection can change
-/

namespace Claw.SrvConn

open Claw

set_option linter.unusedSimpArgs false

/-- `s'` is `s` some time later, with the same payloads. -/
structure Later (s s' : Sess) : Prop where
  sid : s'.id = s.id
  recv : s.recvClosed = true → s'.recvClosed = true
  cancel : s.cancelClosed = true → s'.cancelClosed = true
  data : s'.got ++ s'.queue = s.got ++ s.queue

theorem Later.refl (s : Sess) : Later s s := ⟨rfl, id, id, rfl⟩

theorem Later.trans {a b c : Sess} (h1 : Later a b) (h2 : Later b c) : Later a c :=
  ⟨h2.sid.trans h1.sid, h2.recv ∘ h1.recv, h2.cancel ∘ h1.cancel, h2.data.trans h1.data⟩

/-- The same sessions in the same order, each some time later, and of `h` only what `H` allows. -/
def AllLater (H : Nat → HPc → HPc → Prop) (l l' : List Sess) : Prop :=
  l'.length = l.length ∧ ∀ (i : Nat) s s', l[i]? = some s → l'[i]? = some s' → Later s s' ∧ H i s.h s'.h

theorem AllLater.set {H : Nat → HPc → HPc → Prop} {l : List Sess} {i : Nat} {s s' : Sess} (hs : l[i]? = some s)
    (hl : Later s s') (hH : H i s.h s'.h) (hr : ∀ j h, H j h h) : AllLater H l (l.set i s') := by
  refine ⟨by simp, fun j t t' h1 h2 => ?_⟩
  by_cases hj : i = j
  · subst hj
    rw [hs] at h1
    cases h1
    rw [List.getElem?_set_self (List.getElem?_eq_some_iff.1 hs).1] at h2
    cases h2
    exact ⟨hl, hH⟩
  · rw [List.getElem?_set_ne hj, h1] at h2
    cases h2
    exact ⟨.refl _, hr _ _⟩

theorem AllLater.refl {H : Nat → HPc → HPc → Prop} (hr : ∀ j h, H j h h) (l : List Sess) : AllLater H l l :=
  ⟨rfl, fun i s s' h1 h2 => by rw [h1] at h2; cases h2; exact ⟨.refl _, hr _ _⟩⟩

theorem AllLater.trans_eq {a b c : List Sess} (h1 : AllLater (fun _ => Eq) a b) (h2 : AllLater (fun _ => Eq) b c) :
    AllLater (fun _ => Eq) a c := by
  refine ⟨h2.1.trans h1.1, fun i s s' e1 e2 => ?_⟩
  have hi : i < b.length := by rw [h1.1]; exact (List.getElem?_eq_some_iff.1 e1).1
  obtain ⟨k1, k2⟩ := h1.2 i s b[i] e1 (by simp [hi])
  obtain ⟨k3, k4⟩ := h2.2 i b[i] s' (by simp [hi]) e2
  exact ⟨k1.trans k3, k2.trans k4⟩

theorem AllLater.of_eq {H : Nat → HPc → HPc → Prop} (hr : ∀ j h, H j h h) {a b : List Sess}
    (h : AllLater (fun _ => Eq) a b) : AllLater H a b :=
  ⟨h.1, fun i s s' e1 e2 => ⟨(h.2 i s s' e1 e2).1, (h.2 i s s' e1 e2).2 ▸ hr _ _⟩⟩

theorem closeCancel_heap (c : Conn) (i : Nat) : ∃ heap', closeCancel c i = { c with heap := heap' } ∧
    AllLater (fun _ => Eq) c.heap heap' := by
  unfold closeCancel
  split
  · exact ⟨c.heap, rfl, .refl (fun _ _ => rfl) _⟩
  · rename_i s hs
    exact ⟨_, rfl, .set hs ⟨rfl, id, fun _ => rfl, rfl⟩ rfl (fun _ _ => rfl)⟩

theorem closeAll_heap : ∀ (l : List (UInt32 × Nat)) (c : Conn), ∃ heap',
    l.foldl (fun c e => closeCancel c e.2) c = { c with heap := heap' } ∧ AllLater (fun _ => Eq) c.heap heap'
  | [], c => ⟨c.heap, rfl, .refl (fun _ _ => rfl) _⟩
  | e :: l, c => by
    obtain ⟨h1, e1, a1⟩ := closeCancel_heap c e.2
    obtain ⟨h2, e2, a2⟩ := closeAll_heap l { c with heap := h1 }
    exact ⟨h2, by rw [List.foldl_cons, e1, e2], a1.trans_eq a2⟩

theorem closeConn_heap (c : Conn) : ∃ heap', closeConn c = { c with closed := true, heap := heap' } ∧
    AllLater (fun _ => Eq) c.heap heap' := by
  unfold closeConn
  split
  · rename_i h
    exact ⟨c.heap, by cases c; simp_all, .refl (fun _ _ => rfl) _⟩
  · obtain ⟨h, e, a⟩ := closeAll_heap c.sessions { c with closed := true }
    exact ⟨h, by rw [e], a⟩

theorem exit_heap {c : Conn} (h : Inv c) (hp : c.pc = .idle) : ∃ heap', exit c = { c with pc := .exited, heap := heap' } ∧
    AllLater (fun _ => Eq) c.heap heap' ∧ ∀ e ∈ c.sessions, ∀ s, heap'[e.2]? = some s → s.recvClosed = true := by
  obtain ⟨heap', k1, k2, k3, k4, k5⟩ := exit_all c.sessions { c with pc := .exited } h.nocrash h.nodup
    (fun e he => by
      obtain ⟨s, h1, _, h3⟩ := h.objs e he
      exact ⟨s, h1, h3 (by simp [hp])⟩)
  refine ⟨heap', by unfold exit; rw [k1], ⟨k4, fun i s s' e1 e2 => ?_⟩, k3⟩
  obtain ⟨t, q1, q2, q3, q4, q5, q6, q7⟩ := k2 i s e1
  rw [e2] at q1
  cases q1
  exact ⟨⟨q2, q7, fun hh => by rw [q6]; exact hh, by rw [q4, q5]⟩, q3.symm⟩

/-- Everything one action can do. -/
inductive Effect (c : Conn) : Act → Conn → Prop
  /-- bookkeeping: no frame is sent, no payload moves into a session, no handler moves; the map only shrinks -/
  | quiet {a : Act} {c' : Conn} : AllLater (fun _ => Eq) c.heap c'.heap → c'.out = c.out → c'.next = c.next →
      c'.packing = c.packing → c'.allowPacking = c.allowPacking → (c.closed = true → c'.closed = true) →
      (c.draining = true → c'.draining = true) →
      (c'.pc = c.pc ∨ c'.pc = .idle ∧ (∀ i, c.pc ≠ .submitting i) ∧ (∀ o i, c.pc ≠ .acking o i) ∨
        (c.pc = .idle ∧ ((∃ f, a = .read f ∧
          ∀ i p, c'.pc = .sending i p → ∃ s, c.heap[i]? = some s ∧ f = .payload s.id p false)) ∧
          (∀ i, c'.pc ≠ .submitting i) ∧ (∀ o i, c'.pc ≠ .acking o i)) ∨
        c'.pc = .exited ∧ c.pc = .idle ∨
        (∃ i, c.pc = .cancelling i ∧ c'.pc = .cancelled i) ∨ (∃ o pk, c.pc = .creating o pk ∧ c'.pc = .rejecting o)) →
      Effect c a c'
  /-- a frame that belongs to no session -/
  | misc {a : Act} {m : Sent} {gs : List GPc} {pc : RPc} : (∃ o, m = .ack o 0 false false) ∨ (∃ n, m = .pong n) ∨ (∃ n, m = .goAway n) →
      (pc = c.pc ∨ pc = .idle ∧ (∀ i, c.pc ≠ .submitting i) ∧ (∀ o i, c.pc ≠ .acking o i)) →
      Effect c a { send c m with pc := pc, gs := gs }
  /-- a session is made -/
  | create {o : UInt32} {pk : Bool} : c.pc = .creating o pk → c.draining = false → Effect c .tick (create c o pk)
  /-- its OpenAck is sent -/
  | ack {o : UInt32} {i : Nat} {s : Sess} : c.pc = .acking o i → c.heap[i]? = some s →
      Effect c .tick { send c (.ack o s.id true c.packing) with pc := .submitting i }
  /-- its handler starts -/
  | start {i : Nat} {s : Sess} : c.pc = .submitting i → c.heap[i]? = some s → free c →
      Effect c .tick { c with heap := c.heap.set i { s with h := .running }, pc := .idle }
  /-- a payload is put into its channel -/
  | push {i : Nat} {s : Sess} {p : Pl} : c.pc = .sending i p → c.heap[i]? = some s → s.recvClosed = false →
      Effect c .tick { c with heap := c.heap.set i { s with queue := s.queue ++ [p] }, pc := .idle }
  /-- its handler sends a payload -/
  | reply {i : Nat} {s : Sess} {p : Pl} : c.heap[i]? = some s → s.h = .running →
      Effect c (.reply i p) (send c (.payload s.id p))
  /-- its handler returns -/
  | ended {i : Nat} {s : Sess} : c.heap[i]? = some s → s.h = .running →
      Effect c (.ret i) { send c (.close s.id) with heap := c.heap.set i { s with h := .returned } }
  /-- the steps of the deferred function -/
  | unwind {i : Nat} {s s' : Sess} {m : List (UInt32 × Nat)} {wg : Nat} : c.heap[i]? = some s → Later s s' →
      (s.h = .returned ∧ s'.h = .deleted ∧ m = remove c.sessions s.id ∨ s.h = .deleted ∧ s'.h = .closed ∧ m = c.sessions ∨
        s.h = .closed ∧ s'.h = .done ∧ m = c.sessions) →
      Effect c (.ret i) { c with heap := c.heap.set i s', sessions := m, wg := wg }

theorem eff_same {c : Conn} (a : Act) {c' : Conn} (h : AllLater (fun _ => Eq) c.heap c'.heap) (h1 : c'.out = c.out)
    (h2 : c'.next = c.next) (h3 : c'.packing = c.packing) (h4 : c'.allowPacking = c.allowPacking)
    (h5 : c.closed = true → c'.closed = true) (h6 : c.draining = true → c'.draining = true) (h7 : c'.pc = c.pc) :
    Effect c a c' := .quiet h h1 h2 h3 h4 h5 h6 (.inl h7)

theorem eff_self (c : Conn) (a : Act) : Effect c a c :=
  eff_same a (.refl (fun _ _ => rfl) _) rfl rfl rfl rfl id id rfl

theorem read_effect {c : Conn} (h : Inv c) (hp : c.pc = .idle) (f : Frame) : Effect c (.read f) (read c f) := by
  have base : ∀ (pc : RPc) (m : List (UInt32 × Nat)), (∀ i p, pc ≠ .sending i p) → (∀ i, pc ≠ .submitting i) →
      (∀ o i, pc ≠ .acking o i) → Effect c (.read f) { c with pc := pc, sessions := m } := by
    intro pc m h1 h2 h3
    exact .quiet (.refl (fun _ _ => rfl) _) rfl rfl rfl rfl id id
      (.inr (.inr (.inl ⟨hp, ⟨f, rfl, fun i p e => absurd e (h1 i p)⟩, h2, h3⟩)))
  unfold read
  split
  · split
    · exact base _ c.sessions (by simp) (by simp) (by simp)
    · split
      · exact base _ c.sessions (by simp) (by simp) (by simp)
      · split
        · exact base _ c.sessions (by simp) (by simp) (by simp)
        · exact base _ c.sessions (by simp) (by simp) (by simp)
  · split
    · exact eff_self _ _
    · exact base _ _ (by simp) (by simp) (by simp)
  · rename_i id p d
    split
    · exact eff_self _ _
    · rename_i i hl
      split
      · exact eff_self _ _
      · rename_i hd
        obtain ⟨s, h1, h2, _⟩ := h.objs _ (lookup_mem hl)
        refine .quiet (.refl (fun _ _ => rfl) _) rfl rfl rfl rfl _root_.id _root_.id (.inr (.inr (.inl ⟨hp, ⟨_, rfl, ?_⟩, by simp, by simp⟩)))
        intro j q e
        simp only [RPc.sending.injEq] at e
        obtain ⟨rfl, rfl⟩ := e
        exact ⟨s, h1, by rw [h2]; simp at hd; rw [hd]⟩
  · split
    · exact eff_self _ _
    · exact base _ _ (by simp) (by simp) (by simp)
  · exact base _ c.sessions (by simp) (by simp) (by simp)
  · exact eff_self _ _

theorem closeRecv_effect {c : Conn} {i : Nat} {s : Sess} (hs : c.heap[i]? = some s) (hr : s.recvClosed = false)
    (h1 : ∀ i, c.pc ≠ .submitting i) (h2 : ∀ o i, c.pc ≠ .acking o i) :
    Effect c .tick { closeRecv c i with pc := .idle } := by
  unfold closeRecv
  rw [hs]
  simp only [hr, Bool.false_eq_true, if_false]
  exact .quiet (.set hs ⟨rfl, fun _ => rfl, id, rfl⟩ rfl (fun _ _ => rfl)) rfl rfl rfl rfl id id (.inr (.inl ⟨rfl, h1, h2⟩))

theorem send_misc {c : Conn} (a : Act) (m : Sent) (pc : RPc)
    (hm : (∃ o, m = .ack o 0 false false) ∨ (∃ n, m = .pong n) ∨ (∃ n, m = .goAway n))
    (hp : pc = c.pc ∨ pc = .idle ∧ (∀ i, c.pc ≠ .submitting i) ∧ (∀ o i, c.pc ≠ .acking o i)) (gs : List GPc) :
    Effect c a { send c m with pc := pc, gs := gs } := .misc hm hp

theorem send_gs (c : Conn) (m : Sent) : (send c m).gs = c.gs ∧ (send c m).pc = c.pc := by
  obtain ⟨o, e⟩ := send_frame c m
  rw [e]; exact ⟨rfl, rfl⟩

theorem tick_effect {c c' : Conn} (h : Inv c) (e : tick c = some c') : Effect c .tick c' := by
  have hp := h.pcok
  unfold PcOk at hp
  unfold tick at e
  cases hpc : c.pc with
  | idle => rw [hpc] at e; simp at e
  | exited => rw [hpc] at e; simp at e
  | rejecting o =>
    rw [hpc] at e; simp only [Option.some.injEq] at e; subst e
    have := send_misc (c := c) .tick (.ack o 0 false false) .idle (.inl ⟨o, rfl⟩) (.inr ⟨rfl, by simp [hpc], by simp [hpc]⟩) (send c (.ack o 0 false false)).gs
    exact this
  | creating o p =>
    rw [hpc] at e; simp only [Option.some.injEq] at e; subst e
    by_cases hd : c.draining = true
    · unfold create
      rw [if_pos hd]
      exact .quiet (.refl (fun _ _ => rfl) _) rfl rfl rfl rfl id id (.inr (.inr (.inr (.inr (.inr ⟨o, p, hpc, rfl⟩)))))
    · exact .create hpc (by simpa using hd)
  | acking o i =>
    rw [hpc] at e hp
    obtain ⟨s, h1, h2⟩ := hp
    simp only [h1, Option.some.injEq] at e
    subst e
    exact .ack hpc h1
  | submitting i =>
    rw [hpc] at e hp
    obtain ⟨s, h1, h2⟩ := hp
    simp only [h1] at e
    split at e <;> simp only [Option.some.injEq, reduceCtorEq] at e
    rename_i hf
    subst e
    exact .start hpc h1 hf
  | sending i p =>
    rw [hpc] at e hp
    obtain ⟨s, h1, h2⟩ := hp
    simp only [h1] at e
    rw [if_neg (by simp [h2])] at e
    split at e
    · simp only [Option.some.injEq] at e; subst e
      exact .push hpc h1 h2
    · simp at e
  | closing i =>
    rw [hpc] at e hp; simp only [Option.some.injEq] at e; subst e
    obtain ⟨s, h1, h2, h3⟩ := hp
    exact closeRecv_effect h1 h2 (by simp [hpc]) (by simp [hpc])
  | cancelled i =>
    rw [hpc] at e hp; simp only [Option.some.injEq] at e; subst e
    obtain ⟨s, h1, h2, h3⟩ := hp
    exact closeRecv_effect h1 h2 (by simp [hpc]) (by simp [hpc])
  | cancelling i =>
    rw [hpc] at e; simp only [Option.some.injEq] at e; subst e
    obtain ⟨heap', e1, a1⟩ := closeCancel_heap c i
    rw [e1]
    exact .quiet a1 rfl rfl rfl rfl id id (.inr (.inr (.inr (.inr (.inl ⟨i, hpc, rfl⟩)))))
  | ponging n =>
    rw [hpc] at e; simp only [Option.some.injEq] at e; subst e
    have := send_misc (c := c) .tick (.pong n) .idle (.inr (.inl ⟨n, rfl⟩)) (.inr ⟨rfl, by simp [hpc], by simp [hpc]⟩) (send c (.pong n)).gs
    exact this

theorem step_effect {c c' : Conn} {a : Act} (h : Inv c) (e : step c a = some c') : Effect c a c' := by
  unfold step at e
  rw [if_neg (by simp [h.nocrash])] at e
  cases a with
  | read f =>
    dsimp only at e
    split at e
    · rename_i hp
      simp only [Option.some.injEq] at e; subst e
      exact read_effect h hp f
    · simp at e
  | tick => exact tick_effect h e
  | giveUp =>
    dsimp only at e
    split at e
    · rename_i i p hp
      split at e
      · simp at e
      · split at e
        · simp only [Option.some.injEq] at e; subst e
          exact .quiet (.refl (fun _ _ => rfl) _) rfl rfl rfl rfl id id (.inr (.inl ⟨rfl, by simp [hp], by simp [hp]⟩))
        · simp at e
    · simp at e
  | exit =>
    dsimp only at e
    split at e
    · rename_i hp
      simp only [Option.some.injEq] at e; subst e
      obtain ⟨heap', e1, a1, _⟩ := exit_heap h hp
      rw [e1]
      exact .quiet a1 rfl rfl rfl rfl id id (.inr (.inr (.inr (.inl ⟨rfl, hp⟩))))
    · simp at e
  | close =>
    simp only [Option.some.injEq] at e; subst e
    obtain ⟨heap', e1, a1⟩ := closeConn_heap c
    rw [e1]
    exact eff_same _ a1 rfl rfl rfl rfl (fun _ => rfl) id rfl
  | recv i =>
    dsimp only at e
    split at e
    · simp at e
    · rename_i s hs
      split at e
      · split at e
        · simp at e
        · rename_i p q hq
          simp only [Option.some.injEq] at e; subst e
          exact eff_same _ (.set hs ⟨rfl, id, id, by simp [hq]⟩ rfl (fun _ _ => rfl)) rfl rfl rfl rfl id id rfl
      · simp at e
  | reply i p =>
    dsimp only at e
    split at e
    · simp at e
    · rename_i s hs
      split at e
      · rename_i hh
        simp only [Option.some.injEq] at e; subst e
        exact .reply hs hh
      · simp at e
  | ret i =>
    dsimp only at e
    unfold ret at e
    cases hs : c.heap[i]? with
    | none => simp [hs] at e
    | some s =>
      rw [hs] at e
      dsimp only at e
      cases hh : s.h with
      | waiting => rw [hh] at e; simp at e
      | done => rw [hh] at e; simp at e
      | running =>
        rw [hh] at e
        simp only [Option.some.injEq] at e
        subst e
        exact .ended hs hh
      | returned =>
        rw [hh] at e
        simp only [Option.some.injEq] at e
        subst e
        exact .unwind (s' := { s with h := .deleted }) hs ⟨rfl, id, id, rfl⟩ (.inl ⟨hh, rfl, rfl⟩)
      | deleted =>
        rw [hh] at e
        simp only [Option.some.injEq] at e
        subst e
        exact .unwind (s' := { s with cancelClosed := true, h := .closed }) hs ⟨rfl, id, fun _ => rfl, rfl⟩ (.inr (.inl ⟨hh, rfl, rfl⟩))
      | closed =>
        rw [hh] at e
        dsimp only at e
        have hl := unfinished_less (s' := { s with h := .done }) hs (by simp [hh]) rfl
        have hw := h.wg
        rw [if_neg (by omega)] at e
        simp only [Option.some.injEq] at e
        subst e
        exact .unwind (s' := { s with h := .done }) hs ⟨rfl, id, id, rfl⟩ (.inr (.inr ⟨hh, rfl, rfl⟩))
  | graceful =>
    dsimp only at e
    split at e
    · simp only [Option.some.injEq] at e; subst e
      exact eff_same _ (.refl (fun _ _ => rfl) _) rfl rfl rfl rfl id id rfl
    · simp only [Option.some.injEq] at e; subst e
      exact eff_same _ (.refl (fun _ _ => rfl) _) rfl rfl rfl rfl id (fun _ => rfl) rfl
  | drain k =>
    dsimp only at e
    unfold drain at e
    split at e
    · rename_i hg
      simp only [Option.some.injEq] at e; subst e
      have := send_misc (c := c) (.drain k) (.goAway (c.next - 1)) (send c (.goAway (c.next - 1))).pc (.inr (.inr ⟨_, rfl⟩))
        (.inl (send_gs _ _).2) (c.gs.set k .waiting)
      exact this
    · rename_i hg
      split at e
      · rename_i hw
        simp only [Option.some.injEq] at e; subst e
        obtain ⟨heap', e1, a1⟩ := closeConn_heap { c with gs := c.gs.set k .finished }
        rw [e1]
        exact eff_same _ a1 rfl rfl rfl rfl (fun _ => rfl) id rfl
      · simp at e
    · simp at e
  | timeout k =>
    dsimp only at e
    split at e
    · rename_i hg
      simp only [Option.some.injEq] at e; subst e
      obtain ⟨heap', e1, a1⟩ := closeConn_heap { c with gs := c.gs.set k .timedOut }
      rw [e1]
      exact eff_same _ a1 rfl rfl rfl rfl (fun _ => rfl) id rfl
    · simp at e

end Claw.SrvConn
