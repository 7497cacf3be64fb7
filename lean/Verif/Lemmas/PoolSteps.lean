import Verif.Model.Pool

/-!
# The steps of the pool, case by case
-/

namespace Claw.Pool

/-- Connections are closed, nothing else. -/
def Closes (a b : List CC) : Prop := b.length = a.length ∧ ∀ (c : Nat) (x : CC), a[c]? = some x → ∃ k, b[c]? = some { x with closed := x.closed || k }

theorem Closes.refl (a : List CC) : Closes a a := ⟨rfl, fun c x h => ⟨false, by simpa using h⟩⟩

theorem Closes.trans {a b c : List CC} (h1 : Closes a b) (h2 : Closes b c) : Closes a c := by
  refine ⟨h2.1.trans h1.1, fun i x hx => ?_⟩
  obtain ⟨k, hk⟩ := h1.2 i x hx
  obtain ⟨m, hm⟩ := h2.2 i _ hk
  exact ⟨k || m, by rw [hm]; simp [Bool.or_assoc]⟩

theorem closeConn_eff (p : Pool) (c : Nat) : ∃ conns, closeConn p c = { p with conns := conns } ∧ Closes p.conns conns ∧
    (∀ x : CC, p.conns[c]? = some x → conns[c]? = some { x with closed := true }) ∧ (∀ j, j ≠ c → conns[j]? = p.conns[j]?) := by
  unfold closeConn
  split
  · rename_i h
    exact ⟨p.conns, rfl, .refl _, by simp [h], fun _ _ => rfl⟩
  · rename_i x h
    have hlt : c < p.conns.length := (List.getElem?_eq_some_iff.1 h).1
    refine ⟨_, rfl, ⟨by simp, ?_⟩, ?_, ?_⟩
    · intro j y hy
      by_cases hj : c = j
      · subst hj
        rw [h] at hy
        cases hy
        exact ⟨true, by simp [hlt]⟩
      · exact ⟨false, by rw [List.getElem?_set_ne hj, hy]; simp⟩
    · intro y hy
      rw [h] at hy
      cases hy
      simp [hlt]
    · intro j hj
      rw [List.getElem?_set_ne (Ne.symm hj)]

theorem closeOpt_eff (p : Pool) (o : Option Nat) : ∃ conns, closeOpt p o = { p with conns := conns } ∧ Closes p.conns conns ∧
    (∀ (c : Nat) (x : CC), o = some c → p.conns[c]? = some x → conns[c]? = some { x with closed := true }) ∧
    (∀ j, o ≠ some j → conns[j]? = p.conns[j]?) := by
  cases o with
  | none => exact ⟨p.conns, rfl, .refl _, by simp, fun _ _ => rfl⟩
  | some c =>
    obtain ⟨conns, h1, h2, h3, h4⟩ := closeConn_eff p c
    refine ⟨conns, h1, h2, ?_, ?_⟩
    · intro c' x hc hx
      cases hc
      exact h3 x hx
    · intro j hj
      exact h4 j (fun h => hj (by rw [h]))

/-- The SubConns in `l` are shut down and their connections closed. -/
structure Shuts (p : Pool) (l : List Nat) (scs : List SC) (conns : List CC) : Prop where
  len : scs.length = p.scs.length
  closes : Closes p.conns conns
  each : ∀ (i : Nat) (s : SC), p.scs[i]? = some s → scs[i]? = some s ∨ (s.state ≠ .shutdown ∧ scs[i]? = some { s with state := .shutdown, conn := none })
  done : ∀ i ∈ l, ∀ s : SC, scs[i]? = some s → s.state = .shutdown
  closed : ∀ (i : Nat) (s : SC) (c : Nat) (x : CC), p.scs[i]? = some s → s.conn = some c → scs[i]? = some { s with state := .shutdown, conn := none } → s.state ≠ .shutdown →
    p.conns[c]? = some x → conns[c]? = some { x with closed := true }

theorem Closes.stays {a b : List CC} (h : Closes a b) {c : Nat} {x : CC} (hx : a[c]? = some { x with closed := true }) :
    b[c]? = some { x with closed := true } := by
  obtain ⟨k, hk⟩ := h.2 c _ hx
  simpa using hk

theorem shut_eff (p : Pool) (i : Nat) : ∃ scs conns, shut p i = { p with scs := scs, conns := conns } ∧ Shuts p [i] scs conns := by
  unfold shut
  split
  · rename_i h
    refine ⟨p.scs, p.conns, rfl, ⟨rfl, .refl _, fun j s hs => .inl hs, ?_, ?_⟩⟩
    · intro j hj s hs
      simp only [List.mem_singleton] at hj
      subst hj
      rw [h] at hs
      cases hs
    · intro j s c x h1 h2 h3 h4
      rw [h1] at h3
      simp only [Option.some.injEq] at h3
      exact absurd (by rw [h3]) h4
  · rename_i s h
    have hlt : i < p.scs.length := (List.getElem?_eq_some_iff.1 h).1
    split
    · rename_i hst
      refine ⟨p.scs, p.conns, rfl, ⟨rfl, .refl _, fun j s hs => .inl hs, ?_, ?_⟩⟩
      · intro j hj s' hs
        simp only [List.mem_singleton] at hj
        subst hj
        rw [h] at hs
        cases hs
        exact hst
      · intro j s c x h1 h2 h3 h4
        rw [h1] at h3
        simp only [Option.some.injEq] at h3
        exact absurd (by rw [h3]) h4
    · rename_i hst
      obtain ⟨conns, e1, e2, e3, e4⟩ := closeOpt_eff (setSC p i { s with state := .shutdown, conn := none }) s.conn
      rw [e1]
      refine ⟨_, conns, rfl, ⟨by simp [setSC], e2, ?_, ?_, ?_⟩⟩
      · intro j t ht
        by_cases hj : i = j
        · subst hj
          rw [h] at ht
          cases ht
          exact .inr ⟨hst, by simp [setSC, hlt]⟩
        · left
          simp only [setSC]
          rw [List.getElem?_set_ne hj, ht]
      · intro j hj t ht
        simp only [List.mem_singleton] at hj
        subst hj
        simp [setSC, hlt] at ht
        rw [← ht]
      · intro j t c x h1 h2 h3 h4 h5
        by_cases hj : i = j
        · subst hj
          rw [h] at h1
          cases h1
          exact e3 c x h2 h5
        · simp only [setSC] at h3
          rw [List.getElem?_set_ne hj, h1] at h3
          simp only [Option.some.injEq] at h3
          exact absurd (by rw [h3]) h4

theorem shuts_eff : ∀ (l : List Nat) (p : Pool), ∃ scs conns, l.foldl shut p = { p with scs := scs, conns := conns } ∧ Shuts p l scs conns
  | [], p => ⟨p.scs, p.conns, rfl, ⟨rfl, .refl _, fun j s hs => .inl hs, by simp, by
      intro j s c x h1 h2 h3 h4
      rw [h1] at h3
      simp only [Option.some.injEq] at h3
      exact absurd (by rw [h3]) h4⟩⟩
  | i :: l, p => by
    obtain ⟨scs, conns, e1, h1⟩ := shut_eff p i
    obtain ⟨scs', conns', e2, h2⟩ := shuts_eff l { p with scs := scs, conns := conns }
    rw [List.foldl_cons, e1, e2]
    refine ⟨scs', conns', rfl, ⟨h2.len.trans h1.len, h1.closes.trans h2.closes, ?_, ?_, ?_⟩⟩
    · intro j s hs
      rcases h1.each j s hs with h | ⟨hn, h⟩
      · exact h2.each j s h
      · rcases h2.each j _ h with h' | ⟨hn', h'⟩
        · exact .inr ⟨hn, h'⟩
        · exact absurd rfl hn'
    · intro j hj s hs
      rcases List.mem_cons.1 hj with rfl | hj
      · have hlt : j < scs.length := by
          have := (List.getElem?_eq_some_iff.1 hs).1
          rw [h2.len] at this
          exact this
        obtain ⟨t, ht⟩ : ∃ t, scs[j]? = some t := ⟨_, List.getElem?_eq_getElem hlt⟩
        have hst := h1.done j (by simp) t ht
        rcases h2.each j t ht with h | ⟨hn, h⟩
        · rw [h] at hs; cases hs; exact hst
        · exact absurd hst hn
      · exact h2.done j hj s hs
    · intro j s c x g1 g2 g3 g4 g5
      rcases h1.each j s g1 with h | ⟨hn, h⟩
      · obtain ⟨k, hk⟩ := h1.closes.2 c x g5
        have := h2.closed j s c _ h g2 g3 g4 hk
        rw [this]
      · exact h2.closes.stays (h1.closed j s c x g1 g2 h hn g5)

/-- What a step is. -/
inductive Eff (p : Pool) : Act → Pool → Prop
  -- connect tasks
  | dialOk (k : Nat) (t : Task) : p.tasks[k]? = some t → t.pc = .dialing →
      Eff p (.task k true) { p with conns := p.conns ++ [{}], tasks := p.tasks.set k { t with pc := .dialed p.conns.length } }
  | dialFail (k : Nat) (t : Task) (s : SC) (a : Act) : p.tasks[k]? = some t → t.pc = .dialing → p.scs[t.sc]? = some s → s.state ≠ .shutdown →
      Eff p a { p with scs := p.scs.set t.sc { s with state := .transient } }
  | taskQuit (k : Nat) (t : Task) (s : SC) (a : Act) : p.tasks[k]? = some t → t.pc = .dialing → p.scs[t.sc]? = some s → s.state = .shutdown →
      Eff p a { p with tasks := p.tasks.set k { t with pc := .done } }
  | taskEnd (k : Nat) (t : Task) (s : SC) (a : Act) : p.tasks[k]? = some t → t.pc = .dialing → p.scs[t.sc]? = some s → s.state ≠ .shutdown →
      Eff p a { p with scs := p.scs.set t.sc { s with state := .transient }, tasks := p.tasks.set k { t with pc := .done } }
  | refuse (k : Nat) (t : Task) (s : SC) (c : Nat) (b : Bool) : p.tasks[k]? = some t → t.pc = .dialed c → p.scs[t.sc]? = some s →
      s.state = .shutdown → Eff p (.task k b) { p with tasks := p.tasks.set k { t with pc := .refused c } }
  | install (k : Nat) (t : Task) (s : SC) (c : Nat) (b : Bool) : p.tasks[k]? = some t → t.pc = .dialed c → p.scs[t.sc]? = some s →
      s.state ≠ .shutdown → Eff p (.task k b) { p with
        scs := p.scs.set t.sc { conn := some c, state := .ready, health := .serving }
        tasks := p.tasks.set k { t with pc := .installed c } }
  | refused (k : Nat) (t : Task) (c : Nat) (x : CC) (b : Bool) : p.tasks[k]? = some t → t.pc = .refused c → p.conns[c]? = some x →
      Eff p (.task k b) { p with
        conns := p.conns.set c { x with closed := true, ctxDone := true }
        tasks := p.tasks.set k { t with pc := .done } }
  | installed (k : Nat) (t : Task) (c : Nat) (x : CC) (b : Bool) : p.tasks[k]? = some t → t.pc = .installed c → p.conns[c]? = some x →
      Eff p (.task k b) { p with
        conns := p.conns.set c { x with ctxDone := true }
        tasks := p.tasks.set k { t with pc := .done } }
  -- connections
  | rdTop (c : Nat) (x : CC) : p.conns[c]? = some x → x.rd = .top →
      Eff p (.rd c) { p with conns := p.conns.set c { x with rd := if x.closed || x.ctxDone then .exited else .reading } }
  | rdFrame (c : Nat) (x : CC) : p.conns[c]? = some x → x.rd = .reading →
      Eff p (.rd c) { p with conns := p.conns.set c { x with rd := .top, frames := x.frames + 1 } }
  | fail (c : Nat) (x : CC) : p.conns[c]? = some x → Eff p (.fail c) { p with conns := p.conns.set c { x with closed := true, fatal := true } }
  -- calls
  | newCall (w : Bool) : Eff p (.newCall w) { p with calls := p.calls ++ [{ wait := w }] }
  | callSeesClosed (k : Nat) (l : Call) (a : Act) : p.calls[k]? = some l → l.pc = .start → p.closed = true →
      Eff p a { p with calls := p.calls.set k { l with pc := .err } }
  | callLooks (k : Nat) (l : Call) (a : Act) : p.calls[k]? = some l → l.pc = .start → p.closed = false →
      Eff p a { p with calls := p.calls.set k { l with pc := .looking } }
  | callPicks (k : Nat) (l : Call) (i : Nat) (a : Act) : p.calls[k]? = some l → l.pc = .looking → i ∈ p.ready →
      Eff p a { p with calls := p.calls.set k { l with pc := .picked i } }
  | callWaits (k : Nat) (l : Call) (a : Act) : p.calls[k]? = some l → l.pc = .looking → p.ready = [] →
      Eff p a { p with calls := p.calls.set k { l with pc := .waiting p.gen } }
  | callErr (k : Nat) (l : Call) (a : Act) : p.calls[k]? = some l → l.pc ≠ .updating → (∀ i, l.pc ≠ .failed i) → (∀ i o, l.pc ≠ .replacing i o) →
      Eff p a { p with calls := p.calls.set k { l with pc := .err } }
  | callWakes (k : Nat) (l : Call) (g : Nat) (a : Act) : p.calls[k]? = some l → l.pc = .waiting g → g < p.gen →
      Eff p a { p with calls := p.calls.set k { l with pc := .start } }
  | callTakes (k : Nat) (l : Call) (i c : Nat) (s : SC) (a : Act) : p.calls[k]? = some l → l.pc = .picked i → p.scs[i]? = some s →
      s.conn = some c → Eff p a { p with calls := p.calls.set k { l with pc := .has i c } }
  | callOpens (k : Nat) (l : Call) (i c : Nat) (x : CC) (a : Act) : p.calls[k]? = some l → l.pc = .has i c → p.conns[c]? = some x →
      x.closed = false → Eff p a { p with calls := p.calls.set k { l with pc := .opening i c x.frames } }
  | callFails (k : Nat) (l : Call) (i c : Nat) (x : CC) (a : Act) : p.calls[k]? = some l →
      (l.pc = .has i c ∧ x.fatal = false) ∨ (∃ f, l.pc = .opening i c f) → p.conns[c]? = some x →
      x.closed = true → Eff p a { p with calls := p.calls.set k { l with pc := .failed i } }
  | callSent (k : Nat) (l : Call) (i c f : Nat) (x : CC) (a : Act) : p.calls[k]? = some l → l.pc = .opening i c f → p.conns[c]? = some x →
      f < x.frames → Eff p a { p with calls := p.calls.set k { l with pc := .sent i c } }
  | callShut (k : Nat) (l : Call) (i : Nat) (s : SC) (a : Act) : p.calls[k]? = some l → l.pc = .failed i → p.scs[i]? = some s →
      s.state = .shutdown → Eff p a { p with calls := p.calls.set k { l with pc := .updating } }
  | callResets (k : Nat) (l : Call) (i : Nat) (s : SC) (a : Act) : p.calls[k]? = some l → l.pc = .failed i → p.scs[i]? = some s →
      s.state ≠ .shutdown → Eff p a { p with
        scs := p.scs.set i { conn := none, state := .connecting, health := .unknown }
        calls := p.calls.set k { l with pc := .replacing i s.conn } }
  | callReplaces (k : Nat) (l : Call) (i : Nat) (old : Option Nat) (conns : List CC) (a : Act) : p.calls[k]? = some l → l.pc = .replacing i old →
      Closes p.conns conns → (∀ (c : Nat) (x : CC), old = some c → p.conns[c]? = some x → conns[c]? = some { x with closed := true }) →
      Eff p a { p with conns := conns, tasks := p.tasks ++ [{ sc := i }], calls := p.calls.set k { l with pc := .updating } }
  | callUpdates (k : Nat) (l : Call) (a : Act) : p.calls[k]? = some l → l.pc = .updating →
      Eff p a { update p with calls := p.calls.set k { l with pc := .err } }
  -- health checker
  | round : p.enable = true → p.h = .idle → Eff p .round { p with h := .next (if p.open_ then List.range p.scs.length else []) }
  | healthMoves (h' : HPc) (a : Act) : p.h ≠ .idle → (∀ i c f t, h' ≠ .asking i c f t) → Eff p a { p with h := h' }
  | healthAsks (i c : Nat) (x : CC) (todo : List Nat) (a : Act) : p.h = .check i todo → p.conns[c]? = some x →
      Eff p a { p with h := .asking i c x.frames todo }
  | healthStores (i : Nat) (s : SC) (v : Health) (h' : HPc) (a : Act) : p.h ≠ .idle → p.scs[i]? = some s → (∀ i c f t, h' ≠ .asking i c f t) →
      Eff p a { p with scs := p.scs.set i { s with health := v }, h := h' }
  | healthUpdates (a : Act) : p.h = .updating → Eff p a { update p with h := .idle }
  -- closing
  | newClose (g : Bool) : Eff p (.newClose g) { p with ks := p.ks ++ [.start g] }
  | closeEarly (k : Nat) (g : Bool) (a : Act) : p.ks[k]? = some (.start g) → p.closed = true → Eff p a { p with ks := p.ks.set k .early }
  | closeSees (k : Nat) (g : Bool) : p.ks[k]? = some (.start g) → p.closed = false → Eff p (.close k) { p with ks := p.ks.set k (.saw g) }
  | closePanics (k : Nat) (g : Bool) : p.ks[k]? = some (.saw g) → p.closed = true → Eff p (.close k) { p with crashed := true }
  | closeBegins (k : Nat) (g : Bool) (pc : KPc) (a : Act) : p.ks[k]? = some (.saw g) → p.closed = false →
      pc = .closing ∨ (∃ todo, pc = .grace todo none ∧ (p.open_ = true → todo = List.range p.scs.length)) →
      Eff p a { p with closed := true, ks := p.ks.set k pc }
  | closeAll (k : Nat) (scs : List SC) (conns : List CC) (pc : KPc) (a : Act) :
      (p.ks[k]? = some .closing ∧ pc = .done ∧ p.open_ = true) ∨ (∃ todo hold, p.ks[k]? = some (.grace todo hold) ∧ pc = .timedOut hold) →
      Shuts p (List.range p.scs.length) scs conns →
      Eff p a { p with scs := scs, conns := conns, open_ := false, ready := [], ks := p.ks.set k pc }
  | closeAgain (k : Nat) (a : Act) : p.ks[k]? = some .closing → p.open_ = false → Eff p a { p with open_ := false, ready := [], ks := p.ks.set k .done }
  | graceCloses (k : Nat) (todo : List Nat) (c : Nat) (conns : List CC) (a : Act) : p.ks[k]? = some (.grace todo (some c)) → Closes p.conns conns →
      (∀ x : CC, p.conns[c]? = some x → conns[c]? = some { x with closed := true }) →
      Eff p a { p with conns := conns, ks := p.ks.set k (.grace todo none) }
  | graceSkips (k i : Nat) (todo : List Nat) (s : SC) (a : Act) : p.ks[k]? = some (.grace (i :: todo) none) → p.scs[i]? = some s → s.state = .shutdown →
      Eff p a { p with ks := p.ks.set k (.grace todo none) }
  | graceShuts (k i : Nat) (todo : List Nat) (s : SC) (a : Act) : p.ks[k]? = some (.grace (i :: todo) none) → p.scs[i]? = some s →
      s.state ≠ .shutdown → Eff p a { p with
        scs := p.scs.set i { s with state := .shutdown, conn := none }, ks := p.ks.set k (.grace todo s.conn) }
  | graceDone (k : Nat) (a : Act) : p.ks[k]? = some (.grace [] none) → Eff p a { p with open_ := false, ready := [], ks := p.ks.set k .done }
  | lateCloses (k : Nat) (hold : Option Nat) (conns : List CC) (a : Act) : p.ks[k]? = some (.timedOut hold) → Closes p.conns conns →
      (∀ (c : Nat) (x : CC), hold = some c → p.conns[c]? = some x → conns[c]? = some { x with closed := true }) →
      Eff p a { p with conns := conns, ks := p.ks.set k .done }

theorem step_eff {p q : Pool} {a : Act} (e : step p a = some q) : Eff p a q := by
  unfold step at e
  split at e
  · simp at e
  cases a with
  | task k ok =>
    dsimp only [stepTask] at e
    split at e
    · simp at e
    rename_i t ht
    split at e
    · rename_i hpc
      split at e
      · rename_i hok
        simp only [Option.some.injEq] at e
        subst e
        subst hok
        exact .dialOk k t ht hpc
      · split at e
        · simp at e
        rename_i s hs
        split at e
        · rename_i hst
          simp only [Option.some.injEq] at e
          subst e
          exact .taskQuit k t s _ ht hpc hs hst
        · rename_i hst
          simp only [Option.some.injEq] at e
          subst e
          exact .dialFail k t s _ ht hpc hs hst
    · rename_i c hpc
      split at e
      · simp at e
      rename_i s hs
      split at e
      · rename_i hst
        simp only [Option.some.injEq] at e
        subst e
        exact .refuse k t s c _ ht hpc hs hst
      · rename_i hst
        simp only [Option.some.injEq] at e
        subst e
        exact .install k t s c _ ht hpc hs hst
    · rename_i c hpc
      split at e
      · simp at e
      rename_i x hx
      simp only [Option.some.injEq] at e
      subst e
      exact .refused k t c x _ ht hpc hx
    · rename_i c hpc
      split at e
      · simp at e
      rename_i x hx
      simp only [Option.some.injEq] at e
      subst e
      exact .installed k t c x _ ht hpc hx
    · simp at e
  | taskEnd k =>
    dsimp only [stepTaskEnd] at e
    split at e
    · simp at e
    rename_i t ht
    split at e
    · rename_i hpc
      split at e
      · simp at e
      rename_i s hs
      split at e
      · rename_i hst
        simp only [Option.some.injEq] at e
        subst e
        exact .taskQuit k t s _ ht hpc hs hst
      · rename_i hst
        simp only [Option.some.injEq] at e
        subst e
        exact .taskEnd k t s _ ht hpc hs hst
    · simp at e
  | rd c =>
    dsimp only [stepRd] at e
    split at e
    · simp at e
    rename_i x hx
    split at e
    · rename_i hr
      simp only [Option.some.injEq] at e
      subst e
      exact .rdTop c x hx hr
    · rename_i hr
      simp only [Option.some.injEq] at e
      subst e
      exact .rdFrame c x hx hr
    · simp at e
  | fail c =>
    dsimp only [stepFail] at e
    split at e
    · simp at e
    rename_i x hx
    simp only [Option.some.injEq] at e
    subst e
    exact .fail c x hx
  | newCall w =>
    simp only [Option.some.injEq] at e
    subst e
    exact .newCall w
  | call k pick ok =>
    dsimp only [stepCall] at e
    split at e
    · simp at e
    rename_i l hl
    split at e
    · rename_i hpc
      simp only [Option.some.injEq] at e
      subst e
      split
      · rename_i hc
        exact .callSeesClosed k l _ hl hpc hc
      · rename_i hc
        exact .callLooks k l _ hl hpc (by simpa using hc)
    · rename_i hpc
      split at e
      · split at e
        · rename_i hm
          simp only [Option.some.injEq] at e
          subst e
          exact .callPicks k l pick _ hl hpc hm
        · simp at e
      · rename_i hr
        split at e
        · simp only [Option.some.injEq] at e
          subst e
          exact .callWaits k l _ hl hpc (by simpa using hr)
        · simp only [Option.some.injEq] at e
          subst e
          exact .callErr k l _ hl (by simp [hpc]) (by simp [hpc]) (by simp [hpc])
    · rename_i g hpc
      split at e
      · split at e
        · rename_i hg
          simp only [Option.some.injEq] at e
          subst e
          exact .callWakes k l g _ hl hpc hg
        · simp at e
      · split at e
        · simp only [Option.some.injEq] at e
          subst e
          exact .callErr k l _ hl (by simp [hpc]) (by simp [hpc]) (by simp [hpc])
        · simp at e
    · rename_i i hpc
      split at e
      · simp at e
      rename_i s hs
      split at e
      · simp only [Option.some.injEq] at e
        subst e
        exact .callErr k l _ hl (by simp [hpc]) (by simp [hpc]) (by simp [hpc])
      · rename_i c hc
        simp only [Option.some.injEq] at e
        subst e
        exact .callTakes k l i c s _ hl hpc hs hc
    · rename_i i c hpc
      split at e
      · simp at e
      rename_i x hx
      split at e
      · rename_i hcl
        split at e
        · simp only [Option.some.injEq] at e
          subst e
          exact .callErr k l _ hl (by simp [hpc]) (by simp [hpc]) (by simp [hpc])
        · rename_i hf
          simp only [Option.some.injEq] at e
          subst e
          exact .callFails k l i c x _ hl (.inl ⟨hpc, by simpa using hf⟩) hx hcl
      · rename_i hcl
        simp only [Option.some.injEq] at e
        subst e
        exact .callOpens k l i c x _ hl hpc hx (by simpa using hcl)
    · rename_i i c f hpc
      split at e
      · simp at e
      rename_i x hx
      split at e
      · split at e
        · rename_i hf
          simp only [Option.some.injEq] at e
          subst e
          exact .callSent k l i c f x _ hl hpc hx hf
        · simp at e
      · split at e
        · rename_i hcl
          simp only [Option.some.injEq] at e
          subst e
          exact .callFails k l i c x _ hl (.inr ⟨f, hpc⟩) hx hcl
        · simp only [Option.some.injEq] at e
          subst e
          exact .callErr k l _ hl (by simp [hpc]) (by simp [hpc]) (by simp [hpc])
    · rename_i i hpc
      split at e
      · simp at e
      rename_i s hs
      split at e
      · rename_i hst
        simp only [Option.some.injEq] at e
        subst e
        exact .callShut k l i s _ hl hpc hs hst
      · rename_i hst
        simp only [Option.some.injEq] at e
        subst e
        exact .callResets k l i s _ hl hpc hs hst
    · rename_i i old hpc
      simp only [Option.some.injEq] at e
      subst e
      obtain ⟨conns, e1, e2, e3, _⟩ := closeOpt_eff p old
      rw [e1]
      exact .callReplaces k l i old conns _ hl hpc e2 e3
    · rename_i hpc
      simp only [Option.some.injEq] at e
      subst e
      exact .callUpdates k l _ hl hpc
    · simp at e
    · simp at e
  | callEnd k =>
    dsimp only at e
    split at e
    · rename_i l hl
      split at e
      · rename_i hpc
        simp only [Option.some.injEq] at e
        subst e
        exact .callErr k l _ hl (by simp [hpc]) (by simp [hpc]) (by simp [hpc])
      · simp at e
    · simp at e
  | round =>
    dsimp only at e
    split at e
    · rename_i h
      simp only [Option.some.injEq] at e
      subst e
      exact .round h.1 h.2
    · simp at e
  | health r =>
    dsimp only [stepHealth] at e
    split at e
    · simp at e
    · simp at e
    · rename_i hh
      simp only [Option.some.injEq] at e
      subst e
      exact .healthMoves _ _ (by simp [hh]) (by simp)
    · rename_i i todo hh
      split at e
      · simp only [Option.some.injEq] at e
        subst e
        exact .healthMoves _ _ (by simp [hh]) (by simp)
      · split at e
        · simp at e
        · simp only [Option.some.injEq] at e
          subst e
          exact .healthMoves _ _ (by simp [hh]) (by intro i c f t; split <;> simp)
    · rename_i i todo hh
      split at e
      · simp at e
      rename_i s hs
      split at e
      · rename_i c _ hc
        split at e
        · simp at e
        rename_i x hx
        simp only [Option.some.injEq] at e
        subst e
        exact .healthAsks i c x todo _ hh hx
      · simp only [Option.some.injEq] at e
        subst e
        exact .healthMoves _ _ (by simp [hh]) (by simp)
    · rename_i i c f todo hh
      split at e
      · simp at e
      split at e
      · simp only [Option.some.injEq] at e
        subst e
        exact .healthMoves _ _ (by simp [hh]) (by simp)
      · split at e
        · simp only [Option.some.injEq] at e
          subst e
          exact .healthMoves _ _ (by simp [hh]) (by simp)
        · simp at e
    · rename_i i s todo hh
      split at e
      · simp at e
      rename_i sc hs
      simp only [Option.some.injEq] at e
      subst e
      exact .healthStores i sc s _ _ (by simp [hh]) hs (by intro i c f t; split <;> simp)
    · rename_i i todo hh
      split at e
      · simp at e
      rename_i sc hs
      simp only [Option.some.injEq] at e
      subst e
      exact .healthStores i sc _ _ _ (by simp [hh]) hs (by simp)
    · rename_i hh
      simp only [Option.some.injEq] at e
      subst e
      exact .healthUpdates _ hh
  | newClose g =>
    simp only [Option.some.injEq] at e
    subst e
    exact .newClose g
  | close k =>
    dsimp only [stepClose] at e
    split at e
    · simp at e
    rename_i pc hk
    split at e
    · rename_i g
      simp only [Option.some.injEq] at e
      subst e
      split
      · rename_i hc
        exact .closeEarly k g _ hk hc
      · rename_i hc
        exact .closeSees k g hk (by simpa using hc)
    · rename_i g
      split at e
      · rename_i hc
        simp only [Option.some.injEq] at e
        subst e
        exact .closePanics k g hk hc
      · rename_i hc
        simp only [Option.some.injEq] at e
        subst e
        refine .closeBegins k g _ _ hk (by simpa using hc) ?_
        split
        · exact .inr ⟨_, rfl, fun h => by rw [if_pos h]⟩
        · exact .inl rfl
    · simp only [Option.some.injEq] at e
      subst e
      split
      · rename_i ho
        obtain ⟨scs, conns, e1, h1⟩ := shuts_eff (List.range p.scs.length) p
        rw [e1]
        exact .closeAll k scs conns .done _ (.inl ⟨hk, rfl, ho⟩) h1
      · rename_i ho
        exact .closeAgain k _ hk (by simpa using ho)
    · rename_i todo c
      simp only [Option.some.injEq] at e
      subst e
      obtain ⟨conns, e1, e2, e3, _⟩ := closeConn_eff p c
      rw [e1]
      exact .graceCloses k todo c conns _ hk e2 e3
    · rename_i i todo
      split at e
      · simp at e
      rename_i s hs
      split at e
      · rename_i hst
        simp only [Option.some.injEq] at e
        subst e
        exact .graceSkips k i todo s _ hk hs hst
      · rename_i hst
        simp only [Option.some.injEq] at e
        subst e
        exact .graceShuts k i todo s _ hk hs hst
    · simp only [Option.some.injEq] at e
      subst e
      exact .graceDone k _ hk
    · rename_i c
      simp only [Option.some.injEq] at e
      subst e
      obtain ⟨conns, e1, e2, e3, _⟩ := closeConn_eff p c
      rw [e1]
      exact .lateCloses k (some c) conns _ hk e2 (fun c' x h => by cases h; exact e3 x)
    · simp only [Option.some.injEq] at e
      subst e
      exact .lateCloses k none p.conns _ hk (.refl _) (by simp)
    · simp at e
    · simp at e
  | closeEnd k =>
    dsimp only [stepCloseEnd] at e
    split at e
    · rename_i todo hold hk
      simp only [Option.some.injEq] at e
      subst e
      obtain ⟨scs, conns, e1, h1⟩ := shuts_eff (List.range p.scs.length) p
      rw [e1]
      exact .closeAll k scs conns _ _ (.inr ⟨todo, hold, hk, rfl⟩) h1
    · simp at e

theorem run_append : ∀ (as bs : List Act) (p : Pool), run (as ++ bs) p = (run as p).bind (run bs)
  | [], bs, p => rfl
  | a :: as, bs, p => by
    simp only [List.cons_append, run]
    cases step p a with
    | none => rfl
    | some d => exact run_append as bs d

/-- What holds at a state and is kept by every step holds later. -/
theorem run_inv {P : Pool → Prop} (hs : ∀ p a q, P p → step p a = some q → P q) : ∀ {as : List Act} {p q : Pool}, P p → run as p = some q → P q := by
  intro as
  induction as with
  | nil => intro p q h e; simp only [run, Option.some.injEq] at e; exact e ▸ h
  | cons a as ih =>
    intro p q h e
    simp only [run, Option.bind_eq_some_iff] at e
    obtain ⟨d, e1, e2⟩ := e
    exact ih (hs p a d h e1) e2

/-- An execution in which every action meets a condition. -/
def runIf (ok : Pool → Act → Bool) : List Act → Pool → Option Pool
  | [], p => some p
  | a :: as, p => if ok p a then (step p a).bind (runIf ok as) else none

theorem runIf_inv {ok : Pool → Act → Bool} {P : Pool → Prop} (hs : ∀ p a q, P p → ok p a = true → step p a = some q → P q) :
    ∀ {as : List Act} {p q : Pool}, P p → runIf ok as p = some q → P q := by
  intro as
  induction as with
  | nil => intro p q h e; simp only [runIf, Option.some.injEq] at e; exact e ▸ h
  | cons a as ih =>
    intro p q h e
    unfold runIf at e
    split at e
    · rename_i hok
      simp only [Option.bind_eq_some_iff] at e
      obtain ⟨d, e1, e2⟩ := e
      exact ih (hs p a d h hok e1) e2
    · simp at e

/-- An element of a list after one element was replaced. -/
theorem get_set {α : Type} {l : List α} {i j : Nat} {a b : α} (h : (l.set i a)[j]? = some b) : (i = j ∧ b = a) ∨ (i ≠ j ∧ l[j]? = some b) := by
  by_cases hij : i = j
  · subst hij
    rw [List.getElem?_set_self'] at h
    cases hl : l[i]? with
    | none => rw [hl] at h; simp at h
    | some x => rw [hl] at h; simp at h; exact .inl ⟨rfl, h.symm⟩
  · rw [List.getElem?_set_ne hij] at h
    exact .inr ⟨hij, h⟩

theorem get_snoc {α : Type} {l : List α} {j : Nat} {a b : α} (h : (l ++ [a])[j]? = some b) : l[j]? = some b ∨ (j = l.length ∧ b = a) := by
  by_cases hj : j < l.length
  · rw [List.getElem?_append_left hj] at h
    exact .inl h
  · rw [List.getElem?_append_right (by omega)] at h
    cases hk : j - l.length with
    | zero => rw [hk] at h; simp at h; exact .inr ⟨by omega, h.symm⟩
    | succ n => rw [hk] at h; simp at h

theorem Shuts.back {p : Pool} {l : List Nat} {scs : List SC} {conns : List CC} (h : Shuts p l scs conns) {i : Nat} {s : SC} (hs : scs[i]? = some s) :
    ∃ t, p.scs[i]? = some t ∧ (s = t ∨ (t.state ≠ .shutdown ∧ s = { t with state := .shutdown, conn := none })) := by
  have hlt : i < p.scs.length := by
    have := (List.getElem?_eq_some_iff.1 hs).1
    rw [h.len] at this
    exact this
  obtain ⟨t, ht⟩ : ∃ t, p.scs[i]? = some t := ⟨_, List.getElem?_eq_getElem hlt⟩
  refine ⟨t, ht, ?_⟩
  rcases h.each i t ht with h1 | ⟨hn, h1⟩
  · rw [h1] at hs; cases hs; exact .inl rfl
  · rw [h1] at hs; cases hs; exact .inr ⟨hn, rfl⟩

theorem Closes.back {a b : List CC} (h : Closes a b) {c : Nat} {y : CC} (hy : b[c]? = some y) :
    ∃ x k, a[c]? = some x ∧ y = { x with closed := x.closed || k } := by
  have hlt : c < a.length := by
    have := (List.getElem?_eq_some_iff.1 hy).1
    rw [h.1] at this
    exact this
  obtain ⟨x, hx⟩ : ∃ x, a[c]? = some x := ⟨_, List.getElem?_eq_getElem hlt⟩
  obtain ⟨k, hk⟩ := h.2 c x hx
  rw [hk] at hy
  cases hy
  exact ⟨x, k, hx, rfl⟩

end Claw.Pool
