import Verif.Model.ClientConn
import Verif.Lemmas.ServerConn

/-!
# Invariants of the client connection
-/

namespace Claw.CliConn

open Claw.SrvConn (lookup remove lookup_mem mem_remove mem_insert)

set_option linter.unusedSimpArgs false

/-- What `pc` promises. -/
def PcOk (c : Conn) : Prop :=
  match c.pc with
  | .closing i _ => ∃ s, c.heap[i]? = some s ∧ s.recvClosed = false ∧ s.ready = true ∧ ∀ e ∈ c.sessions, e.2 ≠ i
  | .closed i => ∃ s, c.heap[i]? = some s ∧ s.recvClosed = false ∧ s.ready = true ∧ ∀ e ∈ c.sessions, e.2 ≠ i
  | .sending i _ => ∃ s, c.heap[i]? = some s ∧ s.recvClosed = false
  | _ => True

structure Inv (c : Conn) : Prop where
  len : c.openers.length = c.heap.length
  sess : ∀ e ∈ c.sessions, ∃ s, c.heap[e.2]? = some s ∧ s.sid = e.1 ∧ s.ready = true ∧ (c.pc ≠ .exited → s.recvClosed = false)
  pend : ∀ e ∈ c.pending, ∃ s, c.heap[e.2]? = some s ∧ s.openID = e.1 ∧ s.ready = false ∧ s.recvClosed = false
  nodupS : (c.sessions.map (·.2)).Nodup
  nodupP : (c.pending.map (·.2)).Nodup
  pcok : PcOk c
  /-- who waits waits at the channel `drained` -/
  wait : GPc.waiting ∈ c.gs → c.draining = true ∧ c.drained ≠ none
  chan : c.drained = some true → c.draining = true ∧ c.sessions = [] ∧ c.pending = []
  fin : GPc.finishing ∈ c.gs ∨ GPc.finished ∈ c.gs → c.draining = true ∧ c.sessions = [] ∧ c.pending = []
  nocrash : c.crashed = false

/-- The parts of a session that matter for the invariant are unchanged. -/
def Like (s s' : Sess) : Prop :=
  s'.sid = s.sid ∧ s'.openID = s.openID ∧ s'.ready = s.ready ∧ s'.recvClosed = s.recvClosed

theorem Like.refl (s : Sess) : Like s s := ⟨rfl, rfl, rfl, rfl⟩

theorem Like.trans {a b c : Sess} (h1 : Like a b) (h2 : Like b c) : Like a c :=
  ⟨h2.1.trans h1.1, h2.2.1.trans h1.2.1, h2.2.2.1.trans h1.2.2.1, h2.2.2.2.trans h1.2.2.2⟩

def AllLike (l l' : List Sess) : Prop :=
  l'.length = l.length ∧ ∀ (i : Nat) s, l[i]? = some s → ∃ s', l'[i]? = some s' ∧ Like s s'

theorem AllLike.refl (l : List Sess) : AllLike l l := ⟨rfl, fun _ s h => ⟨s, h, Like.refl s⟩⟩

theorem AllLike.trans {a b c : List Sess} (h1 : AllLike a b) (h2 : AllLike b c) : AllLike a c := by
  refine ⟨h2.1.trans h1.1, ?_⟩
  intro i s hs
  obtain ⟨t, k1, k2⟩ := h1.2 i s hs
  obtain ⟨u, g1, g2⟩ := h2.2 i t k1
  exact ⟨u, g1, k2.trans g2⟩

theorem AllLike.set {l : List Sess} {i : Nat} {s s' : Sess} (hs : l[i]? = some s) (h : Like s s') : AllLike l (l.set i s') := by
  refine ⟨by simp, ?_⟩
  intro j t ht
  by_cases hj : i = j
  · subst hj
    rw [hs] at ht
    cases ht
    exact ⟨s', List.getElem?_set_self (List.getElem?_eq_some_iff.1 hs).1, h⟩
  · exact ⟨t, (List.getElem?_set_ne hj).trans ht, Like.refl t⟩

/-- Sessions change only in what does not matter. -/
theorem Inv.like {c : Conn} (h : Inv c) {heap : List Sess} (hl : AllLike c.heap heap) : Inv { c with heap := heap } := by
  refine ⟨h.len.trans hl.1.symm, ?_, ?_, h.nodupS, h.nodupP, ?_, h.wait, h.chan, h.fin, h.nocrash⟩
  · intro e he
    obtain ⟨s, h1, h2, h3, h4⟩ := h.sess e he
    obtain ⟨s', g1, g2, g3, g4, g5⟩ := hl.2 _ _ h1
    exact ⟨s', g1, g2.trans h2, g4.trans h3, fun hp => g5.trans (h4 hp)⟩
  · intro e he
    obtain ⟨s, h1, h2, h3, h4⟩ := h.pend e he
    obtain ⟨s', g1, g2, g3, g4, g5⟩ := hl.2 _ _ h1
    exact ⟨s', g1, g3.trans h2, g4.trans h3, g5.trans h4⟩
  · have hp := h.pcok
    unfold PcOk at hp ⊢
    dsimp only
    cases hpc : c.pc <;> simp only [hpc] at hp ⊢
    case sending =>
      obtain ⟨s, h1, h2⟩ := hp
      obtain ⟨s', g1, g2, g3, g4, g5⟩ := hl.2 _ _ h1
      exact ⟨s', g1, g5.trans h2⟩
    all_goals
      obtain ⟨s, h1, h2, h3, h4⟩ := hp
      obtain ⟨s', g1, g2, g3, g4, g5⟩ := hl.2 _ _ h1
      exact ⟨s', g1, g5.trans h2, g4.trans h3, h4⟩

theorem closeCancel_like (c : Conn) (i : Nat) : ∃ heap, closeCancel c i = { c with heap := heap } ∧ AllLike c.heap heap := by
  unfold closeCancel
  split
  · exact ⟨c.heap, rfl, AllLike.refl _⟩
  · rename_i s hs
    exact ⟨_, rfl, AllLike.set hs ⟨rfl, rfl, rfl, rfl⟩⟩

theorem closeAll_like : ∀ (l : List (UInt32 × Nat)) (c : Conn), ∃ heap,
    l.foldl (fun c e => closeCancel c e.2) c = { c with heap := heap } ∧ AllLike c.heap heap
  | [], c => ⟨c.heap, rfl, AllLike.refl _⟩
  | e :: l, c => by
    obtain ⟨h1, e1, k1⟩ := closeCancel_like c e.2
    obtain ⟨h2, e2, k2⟩ := closeAll_like l { c with heap := h1 }
    exact ⟨h2, by rw [List.foldl_cons, e1, e2], k1.trans k2⟩

theorem closeConn_like (c : Conn) : ∃ heap, closeConn c = { c with closed := true, heap := heap } ∧ AllLike c.heap heap := by
  unfold closeConn
  split
  · rename_i h
    exact ⟨c.heap, by cases c; simp_all, AllLike.refl _⟩
  · obtain ⟨heap, e, k⟩ := closeAll_like (c.sessions ++ c.pending) { c with closed := true }
    exact ⟨heap, e, k⟩

theorem send_frame (c : Conn) (m : Sent) : ∃ o, send c m = { c with out := o } := by
  unfold send
  split
  · exact ⟨c.out, rfl⟩
  · exact ⟨_, rfl⟩

theorem Inv.closeConn {c : Conn} (h : Inv c) : Inv (closeConn c) := by
  obtain ⟨heap, e, k⟩ := closeConn_like c
  rw [e]
  have := h.like k
  exact ⟨this.len, this.sess, this.pend, this.nodupS, this.nodupP, this.pcok, this.wait, this.chan, this.fin, this.nocrash⟩

theorem Inv.send {c : Conn} (h : Inv c) (m : Sent) : Inv (send c m) := by
  obtain ⟨o, e⟩ := send_frame c m
  rw [e]
  exact ⟨h.len, h.sess, h.pend, h.nodupS, h.nodupP, h.pcok, h.wait, h.chan, h.fin, h.nocrash⟩

theorem remove_sublist (m : List (UInt32 × Nat)) (id : UInt32) : (remove m id).Sublist m := List.filter_sublist

theorem nodup_remove {m : List (UInt32 × Nat)} (h : (m.map (·.2)).Nodup) (id : UInt32) : ((remove m id).map (·.2)).Nodup :=
  List.Nodup.sublist ((remove_sublist m id).map _) h

theorem nodup_insert {m : List (UInt32 × Nat)} (h : (m.map (·.2)).Nodup) (id : UInt32) {i : Nat} (hi : ∀ e ∈ m, e.2 ≠ i) :
    ((SrvConn.insert m id i).map (·.2)).Nodup := by
  unfold SrvConn.insert
  rw [List.map_append, List.nodup_append]
  refine ⟨nodup_remove h id, by simp, ?_⟩
  intro a ha b hb
  obtain ⟨e, he, rfl⟩ := List.mem_map.1 ha
  simp at hb
  subst hb
  exact hi e (mem_remove.1 he).1

theorem nodup_val {m : List (UInt32 × Nat)} (h : (m.map (·.2)).Nodup) {a b : UInt32 × Nat} (ha : a ∈ m) (hb : b ∈ m)
    (he : a.2 = b.2) : a = b := by
  induction m with
  | nil => simp at ha
  | cons x m ih =>
    simp only [List.map_cons, List.nodup_cons, List.mem_map, not_exists, not_and] at h
    rcases List.mem_cons.1 ha with ha1 | ha1 <;> rcases List.mem_cons.1 hb with hb1 | hb1
    · exact ha1.trans hb1.symm
    · exact absurd (he.symm.trans (congrArg Prod.snd ha1)) (h.1 b hb1)
    · exact absurd (he.trans (congrArg Prod.snd hb1)) (h.1 a ha1)
    · exact ih h.2 ha1 hb1

/-- Entries of `pending` are dropped and openers change. -/
theorem Inv.dropPend {c : Conn} (h : Inv c) (id : UInt32) {ops : List OPc} (hl : ops.length = c.openers.length) :
    Inv { c with pending := remove c.pending id, openers := ops } := by
  refine ⟨hl.trans h.len, h.sess, fun e he => h.pend e (mem_remove.1 he).1, h.nodupS, nodup_remove h.nodupP id, h.pcok, h.wait, ?_, ?_,
    h.nocrash⟩
  · intro hd
    obtain ⟨h1, h2, h3⟩ := h.chan hd
    exact ⟨h1, h2, by simp [h3, remove]⟩
  · intro hd
    obtain ⟨h1, h2, h3⟩ := h.fin hd
    exact ⟨h1, h2, by simp [h3, remove]⟩

theorem Inv.openers {c : Conn} (h : Inv c) {ops : List OPc} (hl : ops.length = c.openers.length) :
    Inv { c with openers := ops } :=
  ⟨hl.trans h.len, h.sess, h.pend, h.nodupS, h.nodupP, h.pcok, h.wait, h.chan, h.fin, h.nocrash⟩

theorem checkDrained_frame (c : Conn) : checkDrained c = c ∨
    (checkDrained c = { c with drained := some true } ∧ c.draining = true ∧ c.sessions = [] ∧ c.pending = []) := by
  unfold checkDrained
  split
  · rename_i h
    split
    · exact .inr ⟨rfl, h⟩
    · exact .inl rfl
  · exact .inl rfl

theorem Inv.checkDrained {c : Conn} (h : Inv c) : Inv (checkDrained c) := by
  rcases checkDrained_frame c with e | ⟨e, h1, h2, h3⟩
  · rw [e]; exact h
  · rw [e]
    exact ⟨h.len, h.sess, h.pend, h.nodupS, h.nodupP, h.pcok, fun hw => ⟨h1, by simp⟩, fun _ => ⟨h1, h2, h3⟩, h.fin, h.nocrash⟩

/-- The read loop goes to another place. -/
theorem Inv.goto {c : Conn} (h : Inv c) (pc : RPc) (hx : c.pc ≠ .exited) (hp : PcOk { c with pc := pc }) :
    Inv { c with pc := pc } :=
  ⟨h.len, fun e he => by
    obtain ⟨s, h1, h2, h3, h4⟩ := h.sess e he
    exact ⟨s, h1, h2, h3, fun _ => h4 hx⟩, h.pend, h.nodupS, h.nodupP, hp, h.wait, h.chan, h.fin, h.nocrash⟩

theorem Inv.handleAck {c : Conn} (h : Inv c) (hp : c.pc = .idle) (o sid : UInt32) (ok pk : Bool) : Inv (handleAck c o sid ok pk) := by
  unfold CliConn.handleAck
  split
  · exact h
  rename_i i hi
  obtain ⟨s, h1, h2, h3, h4⟩ := h.pend _ (lookup_mem hi)
  dsimp only at h1 ⊢
  have hd := h.dropPend o (rfl : c.openers.length = c.openers.length)
  simp only [h1, h3, Bool.false_eq_true, if_false]
  have hlt := (List.getElem?_eq_some_iff.1 h1).1
  have hpnot : ∀ e ∈ remove c.pending o, e.2 ≠ i := by
    intro e he heq
    have := nodup_val h.nodupP (mem_remove.1 he).1 (lookup_mem hi) heq
    exact (mem_remove.1 he).2 (by rw [this])
  have hsnot : ∀ e ∈ c.sessions, e.2 ≠ i := by
    intro e he heq
    obtain ⟨t, k1, _, k3, _⟩ := h.sess e he
    rw [heq, h1] at k1
    cases k1
    rw [h3] at k3
    simp at k3
  have other : ∀ (e : UInt32 × Nat) (s' : Sess), e.2 ≠ i → (c.heap.set i s')[e.2]? = c.heap[e.2]? := by
    intro e s' he
    exact List.getElem?_set_ne (Ne.symm he)
  split
  · -- rejected
    rename_i hok
    have hcd := hd.checkDrained
    rcases checkDrained_frame { c with pending := remove c.pending o } with e | ⟨e, k1, k2, k3⟩
    · rw [e]
      refine ⟨by simpa using h.len, ?_, ?_, h.nodupS, hd.nodupP, ?_, h.wait, hd.chan, hd.fin, h.nocrash⟩
      · intro x hx
        rw [other x _ (hsnot x hx)]
        exact h.sess x hx
      · intro x hx
        rw [other x _ (hpnot x hx)]
        exact hd.pend x hx
      · unfold PcOk; simp [hp]
    · rw [e] at hcd ⊢
      refine ⟨by simpa using h.len, ?_, ?_, h.nodupS, hd.nodupP, ?_, hcd.wait, hcd.chan, hcd.fin, h.nocrash⟩
      · intro x hx
        rw [other x _ (hsnot x hx)]
        exact h.sess x hx
      · intro x hx
        rw [other x _ (hpnot x hx)]
        exact hd.pend x hx
      · unfold PcOk; simp [hp]
  · refine ⟨by simpa using h.len, ?_, ?_, nodup_insert h.nodupS sid hsnot, hd.nodupP, ?_, h.wait, ?_, ?_, h.nocrash⟩
    · intro x hx
      rcases mem_insert.1 hx with ⟨hx, _⟩ | rfl
      · rw [other x _ (hsnot x hx)]
        exact h.sess x hx
      · exact ⟨_, List.getElem?_set_self hlt, rfl, rfl, fun _ => h4⟩
    · intro x hx
      rw [other x _ (hpnot x hx)]
      exact hd.pend x hx
    · unfold PcOk; simp [hp]
    · intro hc
      have := (h.chan hc).2.2
      have hm := lookup_mem hi
      rw [this] at hm
      simp at hm
    · intro hc
      have := (h.fin hc).2.2
      have hm := lookup_mem hi
      rw [this] at hm
      simp at hm

theorem Inv.dropSess {c : Conn} (h : Inv c) (sid : UInt32) (hp : c.pc = .idle) : Inv { c with sessions := remove c.sessions sid } := by
  refine ⟨h.len, fun e he => h.sess e (mem_remove.1 he).1, h.pend, nodup_remove h.nodupS sid, h.nodupP, ?_, h.wait, ?_, ?_, h.nocrash⟩
  · unfold PcOk; simp [hp]
  · intro hd
    obtain ⟨h1, h2, h3⟩ := h.chan hd
    exact ⟨h1, by simp [h2, remove], h3⟩
  · intro hd
    obtain ⟨h1, h2, h3⟩ := h.fin hd
    exact ⟨h1, by simp [h2, remove], h3⟩

theorem Inv.read {c : Conn} (h : Inv c) (hp : c.pc = .idle) (f : Frame) : Inv (read c f) := by
  cases f with
  | ack o sid ok pk => exact h.handleAck hp o sid ok pk
  | close sid code =>
    unfold CliConn.read
    dsimp only
    split
    · exact h
    rename_i i hi
    obtain ⟨s, h1, h2, h3, h4⟩ := h.sess _ (lookup_mem hi)
    have hd := h.dropSess sid hp
    have hc := hd.checkDrained
    have hnot : ∀ e ∈ remove c.sessions sid, e.2 ≠ i := by
      intro e he heq
      have := nodup_val h.nodupS (mem_remove.1 he).1 (lookup_mem hi) heq
      exact (mem_remove.1 he).2 (by rw [this])
    have hr := h4 (by simp [hp])
    rcases checkDrained_frame { c with sessions := remove c.sessions sid } with e | ⟨e, _⟩ <;> rw [e] at hc ⊢
    · exact hc.goto _ (by simp [hp]) (by unfold PcOk; exact ⟨s, h1, hr, h3, hnot⟩)
    · exact hc.goto _ (by simp [hp]) (by unfold PcOk; exact ⟨s, h1, hr, h3, hnot⟩)
  | payload sid p d =>
    unfold CliConn.read
    dsimp only
    split
    · exact h
    rename_i i hi
    split
    · exact h
    obtain ⟨s, h1, h2, h3, h4⟩ := h.sess _ (lookup_mem hi)
    exact h.goto _ (by simp [hp]) (by unfold PcOk; exact ⟨s, h1, h4 (by simp [hp])⟩)
  | goAway => exact h.closeConn
  | other => exact h

/-- `close(sess.recvCh)` of a session that is not in the map, after which the read loop is idle. -/
theorem Inv.closeRecv {c : Conn} (h : Inv c) {i : Nat} (hp : c.pc = .closed i) : Inv { closeRecv c i with pc := .idle } := by
  have hpk := h.pcok
  unfold PcOk at hpk
  rw [hp] at hpk
  obtain ⟨s, h1, h2, h3, h4⟩ := hpk
  unfold CliConn.closeRecv
  rw [h1]
  simp only [h2, Bool.false_eq_true, if_false]
  have other : ∀ (e : UInt32 × Nat) (s' : Sess), e.2 ≠ i → (c.heap.set i s')[e.2]? = c.heap[e.2]? := by
    intro e s' he
    exact List.getElem?_set_ne (Ne.symm he)
  refine ⟨by simpa using h.len, ?_, ?_, h.nodupS, h.nodupP, trivial, h.wait, h.chan, h.fin, h.nocrash⟩
  · intro x hx
    rw [other x _ (h4 x hx)]
    obtain ⟨t, k1, k2, k3, k4⟩ := h.sess x hx
    exact ⟨t, k1, k2, k3, fun _ => k4 (by simp [hp])⟩
  · intro x hx
    have : x.2 ≠ i := by
      intro heq
      obtain ⟨t, k1, _, k3, _⟩ := h.pend x hx
      rw [heq, h1] at k1
      cases k1
      rw [h3] at k3
      simp at k3
    rw [other x _ this]
    exact h.pend x hx

/-- Closing the channels of all sessions in the map: none of them was closed. -/
theorem exit_all : ∀ (l : List (UInt32 × Nat)) (c : Conn), (l.map (·.2)).Nodup →
    (∀ e ∈ l, ∃ s, c.heap[e.2]? = some s ∧ s.recvClosed = false) →
    ∃ heap, l.foldl (fun c e => CliConn.closeRecv c e.2) c = { c with heap := heap } ∧ heap.length = c.heap.length ∧
      (∀ (i : Nat) s, c.heap[i]? = some s → (∀ e ∈ l, e.2 ≠ i) → heap[i]? = some s) ∧
      ∀ e ∈ l, ∃ s, c.heap[e.2]? = some s ∧ heap[e.2]? = some { s with recvClosed := true }
  | [], c, _, _ => ⟨c.heap, rfl, rfl, fun _ _ h _ => h, by simp⟩
  | e :: l, c, hn, ho => by
    simp only [List.map_cons, List.nodup_cons, List.mem_map, not_exists, not_and] at hn
    obtain ⟨s, h1, h2⟩ := ho e (by simp)
    have hlt := (List.getElem?_eq_some_iff.1 h1).1
    have e1 : CliConn.closeRecv c e.2 = { c with heap := c.heap.set e.2 { s with recvClosed := true } } := by
      unfold CliConn.closeRecv
      rw [h1]
      simp [h2]
    obtain ⟨heap, e2, k0, k1, k2⟩ := exit_all l { c with heap := c.heap.set e.2 { s with recvClosed := true } } hn.2 (by
      intro x hx
      obtain ⟨t, g1, g2⟩ := ho x (by simp [hx])
      exact ⟨t, by rw [← g1]; exact List.getElem?_set_ne (Ne.symm (hn.1 x hx)), g2⟩)
    refine ⟨heap, by rw [List.foldl_cons, e1, e2], by simpa using k0, ?_, ?_⟩
    · intro i t ht hi
      refine k1 i t ?_ (fun x hx => hi x (by simp [hx]))
      rw [← ht]
      exact List.getElem?_set_ne (hi e (by simp))
    · intro x hx
      rcases List.mem_cons.1 hx with rfl | hx
      · refine ⟨s, h1, ?_⟩
        exact k1 x.2 _ (List.getElem?_set_self hlt) (fun y hy => hn.1 y hy)
      · obtain ⟨t, g1, g2⟩ := k2 x hx
        refine ⟨t, ?_, g2⟩
        rw [← g1]
        exact (List.getElem?_set_ne (Ne.symm (hn.1 x hx))).symm

theorem Inv.exit {c : Conn} (h : Inv c) (hp : c.pc = .idle) : Inv (exit c) := by
  obtain ⟨heap, e, k0, k1, k2⟩ := exit_all c.sessions { c with pc := .exited } h.nodupS (fun e he => by
    obtain ⟨s, h1, _, _, h4⟩ := h.sess e he
    exact ⟨s, h1, h4 (by simp [hp])⟩)
  unfold CliConn.exit
  rw [e]
  refine ⟨h.len.trans k0.symm, ?_, ?_, h.nodupS, h.nodupP, trivial, h.wait, h.chan, h.fin, h.nocrash⟩
  · intro x hx
    obtain ⟨s, g1, g2⟩ := k2 x hx
    obtain ⟨t, l1, l2, l3, _⟩ := h.sess x hx
    dsimp only at g1
    rw [l1] at g1
    cases g1
    exact ⟨_, g2, l2, l3, fun hne => absurd rfl hne⟩
  · intro x hx
    obtain ⟨s, h1, h2, h3, h4⟩ := h.pend x hx
    refine ⟨s, k1 x.2 s h1 ?_, h2, h3, h4⟩
    intro y hy heq
    obtain ⟨t, l1, l2, l3, _⟩ := h.sess y hy
    rw [heq, h1] at l1
    cases l1
    rw [h3] at l3
    simp at l3

theorem Inv.tick {c c' : Conn} (h : Inv c) (e : tick c = some c') : Inv c' := by
  have hpk := h.pcok
  unfold PcOk at hpk
  unfold CliConn.tick at e
  cases hpc : c.pc <;> simp only [hpc] at e hpk
  case idle => simp at e
  case exited => simp at e
  case closing i code =>
    obtain ⟨s, h1, h2, h3, h4⟩ := hpk
    rw [h1] at e
    simp only [Option.some.injEq] at e
    subst e
    have hl := AllLike.set (s' := { s with info := match s.info with | none => some code | some k => some k }) h1
      ⟨rfl, rfl, rfl, rfl⟩
    have := h.like hl
    obtain ⟨s', g1, g2, g3, g4, g5⟩ := hl.2 _ _ h1
    exact this.goto _ (by simp [hpc]) (by unfold PcOk; exact ⟨s', g1, g5.trans h2, g4.trans h3, h4⟩)
  case closed i =>
    simp only [Option.some.injEq] at e
    subst e
    exact h.closeRecv hpc
  case sending i p =>
    obtain ⟨s, h1, h2⟩ := hpk
    rw [h1] at e
    dsimp only at e
    rw [if_neg (by simp [h2])] at e
    split at e <;> simp only [Option.some.injEq, reduceCtorEq] at e
    subst e
    have hl := AllLike.set (s' := { s with queue := s.queue ++ [p] }) h1 ⟨rfl, rfl, rfl, rfl⟩
    exact (h.like hl).goto .idle (by simp [hpc]) trivial

theorem iterRecv_like {s s' : Sess} (e : iterRecv s = some s') : Like s s' := by
  unfold iterRecv at e
  split at e <;> try (simp at e; done)
  split at e
  · simp only [Option.some.injEq] at e
    subst e
    unfold yield
    dsimp only
    repeat' split
    all_goals exact ⟨rfl, rfl, rfl, rfl⟩
  · split at e <;> simp only [Option.some.injEq, reduceCtorEq] at e
    subst e
    exact ⟨rfl, rfl, rfl, rfl⟩

theorem iterTick_like {s s' : Sess} (e : iterTick s = some s') : Like s s' := by
  unfold iterTick at e
  repeat' split at e
  all_goals try (simp at e; done)
  all_goals
    simp only [Option.some.injEq] at e
    subst e
    exact ⟨rfl, rfl, rfl, rfl⟩

theorem onSess_cases {c c' : Conn} {i : Nat} {f : Sess → Option Sess} (e : onSess c i f = some c') :
    ∃ s s', c.heap[i]? = some s ∧ c.openers[i]? = some .accepted ∧ f s = some s' ∧ c' = { c with heap := c.heap.set i s' } := by
  unfold onSess at e
  split at e
  · rename_i s ho hs
    split at e <;> simp only [Option.some.injEq, reduceCtorEq] at e
    rename_i s' hf
    exact ⟨s, s', hs, ho, hf, e.symm⟩
  · simp at e

theorem Inv.onSess {c c' : Conn} (h : Inv c) {i : Nat} {f : Sess → Option Sess} (hf : ∀ s s', f s = some s' → Like s s')
    (e : onSess c i f = some c') : Inv c' := by
  obtain ⟨s, s', h1, _, h2, rfl⟩ := onSess_cases e
  exact h.like (AllLike.set h1 (hf s s' h2))

theorem mem_set_of {l : List α} {i : Nat} {a b : α} (h : b ∈ l.set i a) : b ∈ l ∨ b = a := List.mem_or_eq_of_mem_set h

theorem Inv.step {c c' : Conn} {a : Act} (h : Inv c) (e : step c a = some c') : Inv c' := by
  unfold CliConn.step at e
  rw [if_neg (by simp [h.nocrash])] at e
  cases a with
  | read f =>
    dsimp only at e
    split at e <;> simp only [Option.some.injEq, reduceCtorEq] at e
    rename_i hp
    subst e
    exact h.read hp f
  | tick => exact h.tick e
  | giveUp =>
    dsimp only at e
    repeat' split at e
    all_goals try (simp at e; done)
    rename_i hpc _ _ _ _
    simp only [Option.some.injEq] at e
    subst e
    exact h.goto .idle (by simp [hpc]) trivial
  | exit =>
    dsimp only at e
    split at e <;> simp only [Option.some.injEq, reduceCtorEq] at e
    rename_i hp
    subst e
    exact h.exit hp
  | close =>
    simp only [Option.some.injEq] at e
    subst e
    exact h.closeConn
  | «open» =>
    dsimp only at e
    split at e
    · simp only [Option.some.injEq] at e; subst e; exact h
    split at e
    · simp only [Option.some.injEq] at e; subst e; exact h
    rename_i hnd
    simp only [Option.some.injEq] at e
    subst e
    have old : ∀ (i : Nat) s, c.heap[i]? = some s → (c.heap ++ [({ openID := c.nextOpen } : Sess)])[i]? = some s := by
      intro i s hs
      rw [List.getElem?_append_left (List.getElem?_eq_some_iff.1 hs).1]
      exact hs
    refine ⟨by simp [h.len], ?_, ?_, h.nodupS, ?_, ?_, h.wait, ?_, ?_, h.nocrash⟩
    · intro x hx
      obtain ⟨s, h1, h2⟩ := h.sess x hx
      exact ⟨s, old _ _ h1, h2⟩
    · intro x hx
      rcases mem_insert.1 hx with ⟨hx, _⟩ | rfl
      · obtain ⟨s, h1, h2⟩ := h.pend x hx
        exact ⟨s, old _ _ h1, h2⟩
      · exact ⟨{ openID := c.nextOpen }, by simp, rfl, rfl, rfl⟩
    · refine nodup_insert h.nodupP _ ?_
      intro x hx heq
      obtain ⟨s, h1, _⟩ := h.pend x hx
      have := (List.getElem?_eq_some_iff.1 h1).1
      omega
    · have hp := h.pcok
      unfold PcOk at hp ⊢
      dsimp only
      cases hpc : c.pc <;> simp only [hpc] at hp ⊢
      all_goals
        obtain ⟨s, h1, h2⟩ := hp
        exact ⟨s, old _ _ h1, h2⟩
    · intro hc
      exact absurd (h.chan hc).1 hnd
    · intro hc
      exact absurd (h.fin hc).1 hnd
  | sendOpen i =>
    dsimp only at e
    split at e
    · split at e <;> simp only [Option.some.injEq] at e <;> subst e
      · exact h.dropPend _ (by simp)
      · exact (h.send _).openers (by obtain ⟨o, eo⟩ := send_frame c (.open _ c.usePacking); rw [eo]; simp)
    · simp at e
  | openTimeout i =>
    dsimp only at e
    split at e <;> simp only [Option.some.injEq, reduceCtorEq] at e
    subst e
    exact h.dropPend _ (by simp)
  | openClosed i =>
    dsimp only at e
    repeat' split at e
    all_goals try (simp at e; done)
    simp only [Option.some.injEq] at e
    subst e
    exact h.openers (by simp)
  | openReady i =>
    dsimp only at e
    split at e
    · split at e <;> simp only [Option.some.injEq, reduceCtorEq] at e
      subst e
      exact h.openers (by simp)
    · simp at e
  | recv i => exact h.onSess (fun _ _ => iterRecv_like) e
  | iterCancel i =>
    refine h.onSess ?_ e
    intro s s' e
    split at e <;> simp only [Option.some.injEq, reduceCtorEq] at e
    subst e
    exact ⟨rfl, rfl, rfl, rfl⟩
  | iterTick i => exact h.onSess (fun _ _ => iterTick_like) e
  | closeSess i =>
    dsimp only at e
    split at e <;> simp only [Option.some.injEq, reduceCtorEq] at e
    subst e
    refine Inv.send ?_ _
    obtain ⟨heap, e, k⟩ := closeCancel_like c i
    rw [e]
    exact h.like k
  | sendPl i p =>
    dsimp only at e
    split at e <;> simp only [Option.some.injEq, reduceCtorEq] at e
    subst e
    exact h.send _
  | sendCancel i =>
    dsimp only at e
    split at e <;> simp only [Option.some.injEq, reduceCtorEq] at e
    subst e
    exact h.send _
  | ping =>
    simp only [Option.some.injEq] at e
    subst e
    exact h.send _
  | graceful =>
    dsimp only at e
    split at e
    · simp only [Option.some.injEq] at e
      subst e
      exact ⟨h.len, h.sess, h.pend, h.nodupS, h.nodupP, h.pcok, fun hw => h.wait (by simpa using hw), h.chan,
        fun hw => h.fin (by simpa using hw), h.nocrash⟩
    split at e
    · rename_i hemp
      simp only [Option.some.injEq] at e
      subst e
      refine ⟨h.len, h.sess, h.pend, h.nodupS, h.nodupP, h.pcok, ?_, ?_, ?_, h.nocrash⟩
      · intro hw
        exact ⟨rfl, (h.wait (by simpa using hw)).2⟩
      · intro hd; exact ⟨rfl, (h.chan hd).2⟩
      · intro _; exact ⟨rfl, hemp⟩
    · simp only [Option.some.injEq] at e
      subst e
      refine ⟨h.len, h.sess, h.pend, h.nodupS, h.nodupP, h.pcok, ?_, ?_, ?_, h.nocrash⟩
      · intro _
        refine ⟨rfl, ?_⟩
        cases c.drained <;> simp
      · intro hd
        refine ⟨rfl, (h.chan ?_).2⟩
        cases hcd : c.drained <;> simp_all
      · intro hf
        exact ⟨rfl, (h.fin (by simpa using hf)).2⟩
  | drain k =>
    dsimp only at e
    split at e
    · split at e <;> simp only [Option.some.injEq, reduceCtorEq] at e
      rename_i hd
      subst e
      refine ⟨h.len, h.sess, h.pend, h.nodupS, h.nodupP, h.pcok, ?_, h.chan, fun _ => h.chan hd, h.nocrash⟩
      intro hw
      rcases mem_set_of hw with hw | hw
      · exact h.wait hw
      · simp at hw
    · rename_i hk
      simp only [Option.some.injEq] at e
      subst e
      refine Inv.closeConn ?_
      have hf := h.fin (.inl (List.mem_of_getElem? hk))
      refine ⟨h.len, h.sess, h.pend, h.nodupS, h.nodupP, h.pcok, ?_, h.chan, fun _ => hf, h.nocrash⟩
      intro hw
      rcases mem_set_of hw with hw | hw
      · exact h.wait hw
      · simp at hw
    · simp at e
  | timeout k =>
    dsimp only at e
    split at e <;> simp only [Option.some.injEq, reduceCtorEq] at e
    subst e
    refine Inv.closeConn ?_
    refine ⟨h.len, h.sess, h.pend, h.nodupS, h.nodupP, h.pcok, ?_, h.chan, ?_, h.nocrash⟩
    · intro hw
      rcases mem_set_of hw with hw | hw
      · exact h.wait hw
      · simp at hw
    · intro hw
      refine h.fin ?_
      rcases hw with hw | hw <;> rcases mem_set_of hw with hw | hw
      · exact .inl hw
      · simp at hw
      · exact .inr hw
      · simp at hw
  | gracefulClosed k =>
    dsimp only at e
    repeat' split at e
    all_goals try (simp at e; done)
    simp only [Option.some.injEq] at e
    subst e
    refine ⟨h.len, h.sess, h.pend, h.nodupS, h.nodupP, h.pcok, ?_, h.chan, ?_, h.nocrash⟩
    · intro hw
      rcases mem_set_of hw with hw | hw
      · exact h.wait hw
      · simp at hw
    · intro hw
      refine h.fin ?_
      rcases hw with hw | hw <;> rcases mem_set_of hw with hw | hw
      · exact .inl hw
      · simp at hw
      · exact .inr hw
      · simp at hw

theorem Inv.run : ∀ (as : List Act) {c c' : Conn}, Inv c → run as c = some c' → Inv c'
  | [], c, c', h, e => by simp [CliConn.run] at e; exact e ▸ h
  | a :: as, c, c', h, e => by
    simp only [CliConn.run, Option.bind_eq_some_iff] at e
    obtain ⟨d, e1, e2⟩ := e
    exact Inv.run as (h.step e1) e2

theorem Inv.init (b : Bool) : Inv { usePacking := b } :=
  ⟨rfl, by simp, by simp, by simp, by simp, trivial, by simp, by simp, by simp, rfl⟩

end Claw.CliConn
