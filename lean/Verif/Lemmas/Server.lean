import Verif.Model.Server
import Verif.Props.ServerLimits

/-!
# Lemmas about the server machine
-/

namespace Claw.SrvConn

open Claw

set_option linter.unusedSimpArgs false

theorem exit_gs {c : Conn} (h : Inv c) (hp : c.pc = .idle) : (exit c).gs = c.gs ∧ (exit c).closed = c.closed := by
  obtain ⟨_, e, _⟩ := exit_heap h hp
  rw [e]; exact ⟨rfl, rfl⟩

theorem send_gsc (c : Conn) (m : Sent) : (send c m).gs = c.gs ∧ (send c m).closed = c.closed := by
  obtain ⟨_, e⟩ := send_frame c m
  rw [e]; exact ⟨rfl, rfl⟩

theorem closeConn_gs (c : Conn) : (closeConn c).gs = c.gs ∧ (closeConn c).closed = true := by
  obtain ⟨_, e, _⟩ := closeConn_heap c
  rw [e]; exact ⟨rfl, rfl⟩

theorem closeRecv_gs (c : Conn) (i : Nat) : (closeRecv c i).gs = c.gs ∧ (closeRecv c i).closed = c.closed := by
  unfold closeRecv; repeat' split
  all_goals exact ⟨rfl, rfl⟩

/-- The calls of `GracefulClose` that have returned. -/
def Final (g : GPc) : Prop := g = .early ∨ g = .finished ∨ g = .timedOut

/-- What an action does to the calls of `GracefulClose`. -/
def GsStep (c c' : Conn) : Act → Prop
  | .graceful => c'.closed = c.closed ∧ c'.gs = c.gs ++ [if c.closed then .early else .draining]
  | .drain k => (c.gs[k]? = some .draining ∧ c'.gs = c.gs.set k .waiting ∧ c'.closed = c.closed) ∨
      (c.gs[k]? = some .waiting ∧ c'.gs = c.gs.set k .finished ∧ c'.closed = true)
  | .timeout k => c.gs[k]? = some .waiting ∧ c'.gs = c.gs.set k .timedOut ∧ c'.closed = true
  | _ => c'.gs = c.gs ∧ (c.closed = true → c'.closed = true)

theorem gs_step {c c' : Conn} {a : Act} (hinv : Inv c) (e : step c a = some c') : GsStep c c' a := by
  have keep : c'.gs = c.gs ∧ c'.closed = c.closed → c'.gs = c.gs ∧ (c.closed = true → c'.closed = true) :=
    fun h => ⟨h.1, fun k => h.2.trans k⟩
  unfold step at e
  rw [if_neg (by simp [hinv.nocrash])] at e
  cases a with
  | read f =>
    refine keep ?_
    dsimp only at e
    split at e <;> simp only [Option.some.injEq, reduceCtorEq] at e
    subst e
    unfold read
    repeat' split
    all_goals exact ⟨rfl, rfl⟩
  | tick =>
    refine keep ?_
    dsimp only at e
    unfold tick at e
    cases hpc : c.pc <;> simp only [hpc, reduceCtorEq] at e
    case creating => simp only [Option.some.injEq] at e; subst e; unfold create; split <;> exact ⟨rfl, rfl⟩
    case cancelling i =>
      simp only [Option.some.injEq] at e; subst e; obtain ⟨_, e', _⟩ := closeCancel_heap c i; rw [e']; exact ⟨rfl, rfl⟩
    all_goals
      repeat' split at e
    all_goals first
      | (simp only [Option.some.injEq] at e; subst e
         first | exact ⟨rfl, rfl⟩ | exact send_gsc _ _ | exact closeRecv_gs _ _)
      | simp at e
  | giveUp =>
    refine keep ?_
    dsimp only at e
    repeat' split at e
    all_goals first
      | (simp only [Option.some.injEq] at e; subst e; exact ⟨rfl, rfl⟩)
      | simp at e
  | exit =>
    refine keep ?_
    dsimp only at e
    split at e <;> simp only [Option.some.injEq, reduceCtorEq] at e
    rename_i hp
    subst e
    exact exit_gs hinv hp
  | close =>
    simp only [Option.some.injEq] at e
    subst e
    exact ⟨(closeConn_gs c).1, fun _ => (closeConn_gs c).2⟩
  | recv i =>
    refine keep ?_
    dsimp only at e
    repeat' split at e
    all_goals first
      | (simp only [Option.some.injEq] at e; subst e; exact ⟨rfl, rfl⟩)
      | simp at e
  | reply i p =>
    refine keep ?_
    dsimp only at e
    repeat' split at e
    all_goals first
      | (simp only [Option.some.injEq] at e; subst e; exact send_gsc _ _)
      | simp at e
  | ret i =>
    refine keep ?_
    dsimp only at e
    unfold ret at e
    repeat' split at e
    all_goals first
      | (simp only [Option.some.injEq] at e; subst e; first | exact ⟨rfl, rfl⟩ | exact send_gsc _ _)
      | simp at e
  | graceful =>
    dsimp only at e
    split at e <;> rename_i hc <;> simp only [Option.some.injEq] at e <;> subst e
    · exact ⟨rfl, by simp [hc]⟩
    · exact ⟨rfl, by simp [hc]⟩
  | drain k =>
    dsimp only at e
    unfold drain at e
    split at e
    · rename_i hg
      simp only [Option.some.injEq] at e
      subst e
      exact .inl ⟨hg, rfl, (send_gsc _ _).2⟩
    · rename_i hg
      split at e <;> simp only [Option.some.injEq, reduceCtorEq] at e
      subst e
      exact .inr ⟨hg, (closeConn_gs _).1, (closeConn_gs _).2⟩
    · simp at e
  | timeout k =>
    dsimp only at e
    split at e
    · rename_i hg
      simp only [Option.some.injEq] at e
      subst e
      exact ⟨hg, (closeConn_gs _).1, (closeConn_gs _).2⟩
    · simp at e

theorem closed_step {c c' : Conn} {a : Act} (hinv : Inv c) (e : step c a = some c') (h : c.closed = true) :
    c'.closed = true := by
  have := gs_step hinv e
  cases a <;> simp only [GsStep] at this <;> first
    | exact this.2 h
    | exact this.1.trans h
    | (rcases this with ⟨_, _, k⟩ | ⟨_, _, k⟩ <;> simp [k, h])
    | exact this.2.2

/-- A call that has returned has returned. -/
theorem final_step {c c' : Conn} {a : Act} (hinv : Inv c) (e : step c a = some c') {k : Nat} {g : GPc}
    (h : c.gs[k]? = some g) (hf : Final g) : c'.gs[k]? = some g := by
  have hk := (List.getElem?_eq_some_iff.1 h).1
  have set : ∀ (j : Nat) (x y : GPc), c.gs[j]? = some x → ¬ Final x → c'.gs = c.gs.set j y → c'.gs[k]? = some g := by
    intro j x y hj hx hs
    have hne : j ≠ k := by
      intro e
      subst e
      rw [hj] at h
      cases h
      exact hx hf
    rw [hs, List.getElem?_set_ne hne, h]
  have := gs_step hinv e
  cases a <;> simp only [GsStep] at this
  case graceful => rw [this.2, List.getElem?_append_left hk, h]
  case drain j =>
    rcases this with ⟨k1, k2, _⟩ | ⟨k1, k2, _⟩
    · exact set j _ _ k1 (by simp [Final]) k2
    · exact set j _ _ k1 (by simp [Final]) k2
  case timeout j => exact set j _ _ this.1 (by simp [Final]) this.2.1
  all_goals rw [this.1, h]

/-- A call of `GracefulClose` that has returned has left the connection closed. -/
def FinalClosed (c : Conn) : Prop := ∀ g ∈ c.gs, Final g → c.closed = true

theorem finalClosed_step {c c' : Conn} {a : Act} (hinv : Inv c) (h : FinalClosed c) (e : step c a = some c') :
    FinalClosed c' := by
  intro g hg hf
  have hgs := gs_step hinv e
  have old : g ∈ c.gs → c'.closed = true := fun hm => closed_step hinv e (h g hm hf)
  cases a <;> simp only [GsStep] at hgs
  case graceful =>
    rw [hgs.2] at hg
    rcases List.mem_append.1 hg with hg | hg
    · exact old hg
    · cases hc : c.closed with
      | true => rw [hgs.1]; exact hc
      | false => simp [hc] at hg; subst hg; simp [Final] at hf
  case drain j =>
    rcases hgs with ⟨_, k2, _⟩ | ⟨_, _, k⟩
    · rw [k2] at hg
      rcases List.mem_or_eq_of_mem_set hg with hg | hg
      · exact old hg
      · subst hg; simp [Final] at hf
    · exact k
  case timeout j => exact hgs.2.2
  all_goals exact old (hgs.1 ▸ hg)

theorem reach_finalClosed {as : List Act} {b : Bool} {n : Nat} {c : Conn}
    (h : run as { allowPacking := b, maxRPC := n } = some c) : FinalClosed c :=
  reach_induction (fun _ c => FinalClosed c) (by intro g hg; simp at hg)
    (fun _ _ _ _ hi hp e => finalClosed_step hi hp e) h

theorem exited_step {c c' : Conn} {a : Act} (hinv : Inv c) (e : step c a = some c') (h : c.pc = .exited) :
    c'.pc = .exited := by
  have hself : ∀ m, (send c m).pc = c.pc := by
    intro m; obtain ⟨o, e⟩ := send_frame c m; rw [e]
  unfold step at e
  rw [if_neg (by simp [hinv.nocrash])] at e
  cases a with
  | read f => simp [h] at e
  | tick => simp [tick, h] at e
  | giveUp => simp [h] at e
  | exit => simp [h] at e
  | close =>
    simp only [Option.some.injEq] at e
    subst e
    obtain ⟨_, e', _⟩ := closeConn_heap c
    rw [e']; exact h
  | recv i =>
    dsimp only at e
    repeat' split at e
    all_goals first
      | (simp only [Option.some.injEq] at e; subst e; exact h)
      | simp at e
  | reply i p =>
    dsimp only at e
    repeat' split at e
    all_goals first
      | (simp only [Option.some.injEq] at e; subst e; exact (hself _).trans h)
      | simp at e
  | ret i =>
    dsimp only at e
    unfold ret at e
    repeat' split at e
    all_goals first
      | (simp only [Option.some.injEq] at e; subst e; first | exact h | exact (hself _).trans h)
      | simp at e
  | graceful =>
    dsimp only at e
    split at e <;> simp only [Option.some.injEq] at e <;> subst e <;> exact h
  | drain k =>
    dsimp only at e
    unfold drain at e
    split at e
    · simp only [Option.some.injEq] at e; subst e; exact (hself _).trans h
    · split at e <;> simp only [Option.some.injEq, reduceCtorEq] at e
      subst e
      obtain ⟨_, e', _⟩ := closeConn_heap { c with gs := c.gs.set k .finished }
      rw [e']; exact h
    · simp at e
  | timeout k =>
    dsimp only at e
    split at e <;> simp only [Option.some.injEq, reduceCtorEq] at e
    subst e
    obtain ⟨_, e', _⟩ := closeConn_heap { c with gs := c.gs.set k .timedOut }
    rw [e']; exact h

end Claw.SrvConn

namespace Claw.Srv

open Claw SrvConn

set_option linter.unusedSimpArgs false

/-- A connection the machine of `Model/ServerConn` can be in. -/
def Reach (s : Server) (c : Conn) : Prop :=
  ∃ as, SrvConn.run as { allowPacking := s.allowPacking, maxRPC := s.maxRPC } = some c

theorem Reach.step {s : Server} {c c' : Conn} (h : Reach s c) {a : SrvConn.Act} (e : SrvConn.step c a = some c') :
    Reach s c' := by
  obtain ⟨as, h⟩ := h
  exact ⟨as ++ [a], by rw [run_append, h]; simp [SrvConn.run, e]⟩

/-- The two fields of a call of `Shutdown` that matter for its result. -/
def ShutOk (s : Server) (h : Shut) : Prop :=
  (∀ i ∈ h.snap, i < s.objs.length) ∧ (∀ i ∈ h.todo, i ∈ h.snap) ∧
  (∀ i ∈ h.snap, i ∈ h.todo ∨ ∃ g, (i, g) ∈ h.calls) ∧
  match h.pc with
  | .waiting => True
  | .forcing rest => ∀ i ∈ h.snap, i ∈ rest ∨ ∃ c : Conn, s.objs[i]? = some c ∧ c.closed = true
  | .ok => ∀ i ∈ h.snap, ∃ (c : Conn) (g : Nat), s.objs[i]? = some c ∧ (c.gs[g]? = some .early ∨ c.gs[g]? = some .finished) ∧ c.closed = true
  | .failed => ∀ i ∈ h.snap, ∃ c : Conn, s.objs[i]? = some c ∧ c.closed = true
  | .ctxDone => ∀ i ∈ h.snap, ∃ c : Conn, s.objs[i]? = some c ∧ c.closed = true

/-- The connection a call of `Serve` serves. -/
def served : SPc → Option Nat
  | .serving i => some i
  | _ => none

structure Inv (s : Server) : Prop where
  reach : ∀ (i : Nat) c, s.objs[i]? = some c → Reach s c
  limit : 0 < s.max → s.conns.length ≤ s.max
  nodup : s.conns.Nodup
  /-- a connection whose read loop runs is in the map -/
  there : ∀ (i : Nat) c, s.objs[i]? = some c → i ∈ s.conns ∨ c.pc = .exited
  bound : ∀ i ∈ s.conns, i < s.objs.length
  /-- the map has exactly the connections of the calls of `Serve` -/
  serves : s.conns = s.serves.filterMap served
  shut : ∀ h ∈ s.shuts, ShutOk s h
  down : s.shuts ≠ [] → s.closed = true

theorem ShutOk.mono {s s' : Server} {h : Shut} (hk : ShutOk s h)
    (ho : ∀ (i : Nat) c, s.objs[i]? = some c → ∃ c' : Conn, s'.objs[i]? = some c' ∧ (c.closed = true → c'.closed = true) ∧
      ∀ (g : Nat) x, Final x → c.gs[g]? = some x → c'.gs[g]? = some x) : ShutOk s' h := by
  obtain ⟨h1, h2, h3, h4⟩ := hk
  have cl : ∀ i : Nat, (∃ c : Conn, s.objs[i]? = some c ∧ c.closed = true) → ∃ c : Conn, s'.objs[i]? = some c ∧ c.closed = true := by
    intro i ⟨c, k1, k2⟩
    obtain ⟨c', g1, g2, _⟩ := ho i c k1
    exact ⟨c', g1, g2 k2⟩
  refine ⟨?_, h2, h3, ?_⟩
  · intro i hi
    have hlt := h1 i hi
    obtain ⟨c', g1, _⟩ := ho i s.objs[i] (by simp [hlt])
    exact (List.getElem?_eq_some_iff.1 g1).1
  · cases hp : h.pc <;> simp only [hp] at h4 ⊢
    · intro i hi
      exact (h4 i hi).imp id (cl i)
    · intro i hi
      obtain ⟨c, g, k1, k2, k3⟩ := h4 i hi
      obtain ⟨c', g1, g2, g3⟩ := ho i c k1
      refine ⟨c', g, g1, k2.imp (g3 g _ (.inl rfl)) (g3 g _ (.inr (.inl rfl))), g2 k3⟩
    · exact fun i hi => cl i (h4 i hi)
    · exact fun i hi => cl i (h4 i hi)

theorem served_set : ∀ (l : List SPc) (k i : Nat), l[k]? = some (.serving i) → (l.filterMap served).Nodup →
    (l.set k .returned).filterMap served = (l.filterMap served).filter (· ≠ i)
  | [], _, _, h, _ => by simp at h
  | x :: l, 0, i, h, hn => by
    simp at h
    subst h
    simp only [List.set_cons_zero, List.filterMap_cons, served, List.nodup_cons] at hn ⊢
    rw [List.filter_cons]
    simp only [ne_eq, not_true_eq_false, decide_false, Bool.false_eq_true, if_false]
    symm
    rw [List.filter_eq_self]
    intro a ha
    simp
    rintro rfl
    exact hn.1 ha
  | x :: l, k + 1, i, h, hn => by
    simp only [List.getElem?_cons_succ] at h
    have hmem : i ∈ l.filterMap served := List.mem_filterMap.2 ⟨_, List.mem_of_getElem? h, rfl⟩
    simp only [List.set_cons_succ, List.filterMap_cons] at hn ⊢
    cases hx : served x with
    | none => simp only [hx] at hn ⊢; exact served_set l k i h hn
    | some j =>
      simp only [hx, List.nodup_cons] at hn ⊢
      rw [served_set l k i h hn.2, List.filter_cons]
      have : j ≠ i := fun e => hn.1 (e ▸ hmem)
      simp [this]

theorem Inv.init (m n : Nat) (b : Bool) : Inv { max := m, maxRPC := n, allowPacking := b } := by
  constructor <;> simp [served]

/-- Something happens in one connection. -/
theorem Inv.setObj {s : Server} (h : Inv s) {i : Nat} {c c' : Conn} {a : SrvConn.Act} (hc : s.objs[i]? = some c)
    (e : SrvConn.step c a = some c') : Inv { s with objs := s.objs.set i c' } := by
  have hi := (List.getElem?_eq_some_iff.1 hc).1
  obtain ⟨as, hr⟩ := h.reach i c hc
  have hinv := reach_inv hr
  have hget : ∀ (j : Nat) (d' : Conn), (s.objs.set i c')[j]? = some d' →
      (j = i ∧ d' = c') ∨ (j ≠ i ∧ s.objs[j]? = some d') := by
    intro j d' hd
    by_cases hj : i = j
    · subst hj
      rw [List.getElem?_set_self hi] at hd
      exact .inl ⟨rfl, (Option.some.inj hd).symm⟩
    · rw [List.getElem?_set_ne hj] at hd
      exact .inr ⟨fun e => hj e.symm, hd⟩
  refine ⟨?_, h.limit, h.nodup, ?_, by simpa using h.bound, h.serves, ?_, h.down⟩
  · intro j d hd
    rcases hget j d hd with ⟨_, rfl⟩ | ⟨_, hd⟩
    · exact Reach.step (s := s) ⟨as, hr⟩ e
    · exact h.reach j d hd
  · intro j d hd
    rcases hget j d hd with ⟨rfl, rfl⟩ | ⟨_, hd⟩
    · exact (h.there j c hc).imp id (exited_step hinv e)
    · exact h.there j d hd
  · intro x hx
    refine (h.shut x hx).mono ?_
    intro j d hd
    by_cases hj : i = j
    · subst hj
      rw [hc] at hd
      cases hd
      exact ⟨c', List.getElem?_set_self hi, closed_step hinv e, fun g x hf hg => final_step hinv e hg hf⟩
    · exact ⟨d, (List.getElem?_set_ne hj).trans hd, id, fun _ _ _ h => h⟩

/-- A call of `Shutdown` goes on. -/
theorem Inv.setShut {s : Server} (h : Inv s) {k : Nat} {x x' : Shut} (hk : s.shuts[k]? = some x) (hx : ShutOk s x') :
    Inv { s with shuts := s.shuts.set k x' } := by
  refine ⟨h.reach, h.limit, h.nodup, h.there, h.bound, h.serves, ?_, ?_⟩
  · intro y hy
    rcases List.mem_or_eq_of_mem_set hy with hy | rfl
    · exact h.shut y hy
    · exact hx
  · intro _
    exact h.down (List.ne_nil_of_mem (List.mem_of_getElem? hk))

theorem Inv.step {s s' : Server} {a : Act} (h : Inv s) (e : step s a = some s') : Inv s' := by
  cases a with
  | serve =>
    simp only [Srv.step, Option.some.injEq] at e
    subst e
    unfold accept
    split
    · exact ⟨h.reach, h.limit, h.nodup, h.there, h.bound, by rw [List.filterMap_append, ← h.serves]; simp [served], h.shut, h.down⟩
    split
    · exact ⟨h.reach, h.limit, h.nodup, h.there, h.bound, by rw [List.filterMap_append, ← h.serves]; simp [served], h.shut, h.down⟩
    · rename_i hc hm
      have hget : ∀ (j : Nat) (d : Conn), (s.objs ++ [({ allowPacking := s.allowPacking, maxRPC := s.maxRPC } : Conn)])[j]? = some d →
          (j = s.objs.length ∧ d = { allowPacking := s.allowPacking, maxRPC := s.maxRPC }) ∨ s.objs[j]? = some d := by
        intro j d hd
        by_cases hj : j < s.objs.length
        · rw [List.getElem?_append_left hj] at hd; exact .inr hd
        · have := (List.getElem?_eq_some_iff.1 hd).1
          have : j = s.objs.length := by simp at this; omega
          subst this
          simp at hd
          exact .inl ⟨rfl, hd.symm⟩
      refine ⟨?_, ?_, ?_, ?_, ?_, ?_, ?_, h.down⟩
      · intro j d hd
        rcases hget j d hd with ⟨_, rfl⟩ | hd
        · exact ⟨[], rfl⟩
        · exact h.reach j d hd
      · intro hp
        simp only at hp
        simp only [List.length_append, List.length_cons, List.length_nil]
        omega
      · rw [List.nodup_append]
        refine ⟨h.nodup, by simp, ?_⟩
        intro x hx y hy
        simp at hy
        have := h.bound x hx
        omega
      · intro j d hd
        rcases hget j d hd with ⟨rfl, _⟩ | hd
        · left; simp
        · exact (h.there j d hd).imp (fun h => by simp [h]) id
      · intro j hj
        simp at hj ⊢
        rcases hj with hj | hj
        · have := h.bound j hj; omega
        · omega
      · simp only [List.filterMap_append, ← h.serves]; simp [served]
      · intro x hx
        refine (h.shut x hx).mono ?_
        intro j d hd
        exact ⟨d, by rw [List.getElem?_append_left (List.getElem?_eq_some_iff.1 hd).1]; exact hd, id, fun _ _ _ h => h⟩
  | conn i a =>
    simp only [Srv.step] at e
    split at e
    · simp at e
    split at e
    · simp at e
    rename_i c hc
    simp only [Option.map_eq_some_iff] at e
    obtain ⟨c', e1, rfl⟩ := e
    exact h.setObj hc e1
  | leave k =>
    simp only [Srv.step] at e
    split at e <;> try (simp at e; done)
    rename_i i hk
    split at e <;> try (simp at e; done)
    rename_i c hc
    split at e <;> simp only [Option.some.injEq, reduceCtorEq] at e
    rename_i hx
    subst e
    refine ⟨h.reach, ?_, h.nodup.sublist List.filter_sublist, ?_, ?_, ?_, h.shut, h.down⟩
    · intro hp
      exact Nat.le_trans (List.length_filter_le _ _) (h.limit hp)
    · intro j d hd
      by_cases hj : j = i
      · subst hj
        rw [hc] at hd
        cases hd
        exact .inr hx
      · exact (h.there j d hd).imp (fun h => by simp [h, hj]) id
    · intro j hj
      exact h.bound j ((List.mem_filter.1 hj).1)
    · simp only
      rw [served_set _ _ _ hk (h.serves ▸ h.nodup), ← h.serves]
  | shutdown =>
    simp only [Srv.step, Option.some.injEq] at e
    subst e
    refine ⟨h.reach, h.limit, h.nodup, h.there, h.bound, h.serves, ?_, fun _ => rfl⟩
    intro x hx
    simp only [shutdown] at hx
    rcases List.mem_append.1 hx with hx | hx
    · exact (h.shut x hx).mono fun i c hc => ⟨c, hc, id, fun _ _ _ h => h⟩
    · simp only [List.mem_singleton] at hx
      subst hx
      refine ⟨h.bound, fun _ h => h, fun _ h => .inl h, ?_⟩
      dsimp only
      by_cases he : s.conns = []
      · rw [if_pos he, he]; simp
      · rw [if_neg he]; trivial
  | grace k i =>
    simp only [Srv.step] at e
    split at e
    · simp at e
    rename_i x hk
    split at e <;> try (simp at e; done)
    rename_i hi
    split at e
    · simp at e
    rename_i c hc
    simp only [Option.map_eq_some_iff] at e
    obtain ⟨c', e1, rfl⟩ := e
    have h' := h.setObj hc e1
    refine h'.setShut (x := x) hk ?_
    obtain ⟨g1, g2, g3, g4⟩ := h'.shut x (List.mem_of_getElem? hk)
    refine ⟨g1, fun j hj => g2 j ((List.mem_filter.1 hj).1), ?_, g4⟩
    intro j hj
    rcases g3 j hj with h | ⟨g, h⟩
    · by_cases hji : j = i
      · subst hji; exact .inr ⟨c.gs.length, by simp⟩
      · exact .inl (by simp [h, hji])
    · exact .inr ⟨g, by simp [h]⟩
  | allDone k =>
    simp only [Srv.step] at e
    split at e
    · simp at e
    rename_i x hk
    split at e <;> simp only [Option.some.injEq, reduceCtorEq] at e
    rename_i hx
    obtain ⟨_, ht, ha⟩ := hx
    subst e
    refine h.setShut hk ?_
    obtain ⟨g1, g2, g3, g4⟩ := h.shut x (List.mem_of_getElem? hk)
    refine ⟨g1, g2, g3, ?_⟩
    have hall : ∀ i ∈ x.snap, ∃ g, (i, g) ∈ x.calls ∧ ∃ c : Conn, s.objs[i]? = some c ∧ c.closed = true ∧
        (erred s (i, g) = false → c.gs[g]? = some .early ∨ c.gs[g]? = some .finished) := by
      intro i hi
      rcases g3 i hi with h1 | ⟨g, h1⟩
      · rw [ht] at h1; simp at h1
      · refine ⟨g, h1, ?_⟩
        have hs := List.all_eq_true.1 ha _ h1
        unfold settled at hs
        split at hs
        · simp at hs
        · rename_i c hc
          obtain ⟨as, hr⟩ := h.reach i c hc
          have hfc := reach_finalClosed hr
          refine ⟨c, hc, ?_, ?_⟩
          · split at hs
            · rename_i hg; exact hfc _ (List.mem_of_getElem? hg) (.inl rfl)
            · rename_i hg; exact hfc _ (List.mem_of_getElem? hg) (.inr (.inl rfl))
            · rename_i hg; exact hfc _ (List.mem_of_getElem? hg) (.inr (.inr rfl))
            · simp at hs
          · intro he
            unfold erred at he
            simp only at hc
            simp only [hc] at he
            split at hs
            · rename_i hg; exact .inl hg
            · rename_i hg; exact .inr hg
            · rename_i hg; simp only at hg; simp [hg] at he
            · simp at hs
    dsimp only
    by_cases her : x.calls.any (erred s) = true
    · rw [if_pos her]
      intro i hi
      obtain ⟨g, _, c, k1, k2, _⟩ := hall i hi
      exact ⟨c, k1, k2⟩
    · rw [if_neg her]
      intro i hi
      obtain ⟨g, hm, c, k1, k2, k3⟩ := hall i hi
      refine ⟨c, g, k1, k3 ?_, k2⟩
      cases hh : erred s (i, g) with
      | false => rfl
      | true => exact absurd (List.any_eq_true.2 ⟨_, hm, hh⟩) her
  | ctxDone k =>
    simp only [Srv.step] at e
    split at e
    · simp at e
    rename_i x hk
    split at e <;> simp only [Option.some.injEq, reduceCtorEq] at e
    subst e
    refine h.setShut hk ?_
    obtain ⟨g1, g2, g3, g4⟩ := h.shut x (List.mem_of_getElem? hk)
    exact ⟨g1, g2, g3, fun i hi => .inl hi⟩
  | force k =>
    simp only [Srv.step] at e
    split at e
    · simp at e
    rename_i x hk
    have hx := h.shut x (List.mem_of_getElem? hk)
    split at e
    · rename_i hp
      simp only [Option.some.injEq] at e
      subst e
      refine h.setShut hk ?_
      obtain ⟨g1, g2, g3, g4⟩ := hx
      refine ⟨g1, g2, g3, ?_⟩
      simp only [hp] at g4
      intro i hi
      exact (g4 i hi).resolve_left (by simp)
    · rename_i i rest hp
      split at e
      · simp at e
      rename_i c hc
      simp only [Option.some.injEq] at e
      subst e
      obtain ⟨as, hr⟩ := h.reach i c hc
      have e1 : SrvConn.step c .close = some (closeConn c) := by
        simp [SrvConn.step, (reach_inv hr).nocrash]
      have h' := h.setObj hc e1
      refine h'.setShut (x := x) hk ?_
      obtain ⟨g1, g2, g3, g4⟩ := h'.shut x (List.mem_of_getElem? hk)
      refine ⟨g1, g2, g3, ?_⟩
      simp only [hp] at g4
      intro j hj
      rcases g4 j hj with h4 | h4
      · rcases List.mem_cons.1 h4 with rfl | h4
        · exact .inr ⟨closeConn c, List.getElem?_set_self (List.getElem?_eq_some_iff.1 hc).1, (closeConn_gs c).2⟩
        · exact .inl h4
      · exact .inr h4
    · simp at e

theorem Inv.run : ∀ (as : List Act) {s s' : Server}, Inv s → run as s = some s' → Inv s'
  | [], s, s', h, e => by simp [Srv.run] at e; exact e ▸ h
  | a :: as, s, s', h, e => by
    simp only [Srv.run, Option.bind_eq_some_iff] at e
    obtain ⟨d, e1, e2⟩ := e
    exact Inv.run as (h.step e1) e2

/-- The configuration does not change. -/
theorem step_config {s s' : Server} {a : Act} (e : step s a = some s') :
    s'.max = s.max ∧ s'.maxRPC = s.maxRPC ∧ s'.allowPacking = s.allowPacking := by
  cases a <;> simp only [Srv.step] at e
  case serve =>
    simp only [Option.some.injEq] at e
    subst e
    unfold accept
    repeat' split
    all_goals exact ⟨rfl, rfl, rfl⟩
  case shutdown => simp only [Option.some.injEq] at e; subst e; exact ⟨rfl, rfl, rfl⟩
  all_goals
    repeat' split at e
  all_goals first
    | (simp at e; done)
    | (simp only [Option.some.injEq] at e; subst e; exact ⟨rfl, rfl, rfl⟩)
    | (simp only [Option.map_eq_some_iff] at e; obtain ⟨_, _, rfl⟩ := e; exact ⟨rfl, rfl, rfl⟩)

theorem run_config : ∀ (as : List Act) {s s' : Server}, run as s = some s' →
    s'.max = s.max ∧ s'.maxRPC = s.maxRPC ∧ s'.allowPacking = s.allowPacking
  | [], s, s', e => by simp [Srv.run] at e; subst e; exact ⟨rfl, rfl, rfl⟩
  | a :: as, s, s', e => by
    simp only [Srv.run, Option.bind_eq_some_iff] at e
    obtain ⟨d, e1, e2⟩ := e
    obtain ⟨k1, k2, k3⟩ := run_config as e2
    obtain ⟨g1, g2, g3⟩ := step_config e1
    exact ⟨k1.trans g1, k2.trans g2, k3.trans g3⟩

end Claw.Srv
