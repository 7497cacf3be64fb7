import Verif.Lemmas.PoolSteps

/-!
# C43, C65: the connection pool
-/

namespace Claw.Pool

/-! ### Without health checks -/

/-- The call has no SubConn. -/
def Far (l : Call) : Prop := l.pc = .start ∨ l.pc = .looking ∨ (∃ g, l.pc = .waiting g) ∨ l.pc = .err

theorem all_set {α : Type} {P : α → Prop} {l : List α} {k : Nat} {a : α} (h : ∀ x ∈ l, P x) (ha : P a) : ∀ x ∈ l.set k a, P x := by
  intro x hx
  rcases List.mem_or_eq_of_mem_set hx with hx | rfl
  · exact h x hx
  · exact ha

theorem all_snoc {α : Type} {P : α → Prop} {l : List α} {a : α} (h : ∀ x ∈ l, P x) (ha : P a) : ∀ x ∈ l ++ [a], P x := by
  intro x hx
  rw [List.mem_append, List.mem_singleton] at hx
  rcases hx with hx | rfl
  · exact h x hx
  · exact ha

/-- **C43 (health checks off)** In a pool without health checks no call is ever sent, whatever is connected: the list of ready connections
stays empty, and a call fails or waits to the end of its context. -/
theorem C43_unusable_without_health_checks (n : Nat) (as : List Act) (p : Pool) (h : run as (init n false) = some p) :
    p.ready = [] ∧ ∀ l ∈ p.calls, Far l := by
  have key : p.enable = false ∧ p.h = .idle ∧ p.ready = [] ∧ ∀ l ∈ p.calls, Far l := by
    refine run_inv (P := fun p => p.enable = false ∧ p.h = .idle ∧ p.ready = [] ∧ ∀ l ∈ p.calls, Far l) ?_
      ⟨rfl, rfl, rfl, by simp [init]⟩ h
    rintro p a q ⟨h1, h2, h3, h4⟩ e
    cases step_eff e with
    | round he => rw [h1] at he; cases he
    | healthMoves _ _ hh => exact absurd h2 hh
    | healthAsks _ _ _ _ _ hh => rw [h2] at hh; cases hh
    | healthStores _ _ _ _ _ hh => exact absurd h2 hh
    | healthUpdates _ hh => rw [h2] at hh; cases hh
    | newCall w => exact ⟨h1, h2, h3, all_snoc h4 (.inl rfl)⟩
    | callSeesClosed k l _ hl => exact ⟨h1, h2, h3, all_set h4 (.inr (.inr (.inr rfl)))⟩
    | callLooks k l _ hl => exact ⟨h1, h2, h3, all_set h4 (.inr (.inl rfl))⟩
    | callWaits k l _ hl => exact ⟨h1, h2, h3, all_set h4 (.inr (.inr (.inl ⟨_, rfl⟩)))⟩
    | callErr k l _ hl => exact ⟨h1, h2, h3, all_set h4 (.inr (.inr (.inr rfl)))⟩
    | callWakes k l _ _ hl => exact ⟨h1, h2, h3, all_set h4 (.inl rfl)⟩
    | callPicks k l i _ hl hpc hm => rw [h3] at hm; cases hm
    | callTakes k l i c s _ hl hpc => rcases h4 l (List.mem_of_getElem? hl) with h | h | ⟨_, h⟩ | h <;> rw [hpc] at h <;> cases h
    | callOpens k l i c s _ hl hpc => rcases h4 l (List.mem_of_getElem? hl) with h | h | ⟨_, h⟩ | h <;> rw [hpc] at h <;> cases h
    | callSent k l i c f s _ hl hpc => rcases h4 l (List.mem_of_getElem? hl) with h | h | ⟨_, h⟩ | h <;> rw [hpc] at h <;> cases h
    | callFails k l i c s _ hl hpc =>
      rcases hpc with ⟨hpc, _⟩ | ⟨_, hpc⟩ <;>
        rcases h4 l (List.mem_of_getElem? hl) with h | h | ⟨_, h⟩ | h <;> rw [hpc] at h <;> cases h
    | callShut k l i s _ hl hpc => rcases h4 l (List.mem_of_getElem? hl) with h | h | ⟨_, h⟩ | h <;> rw [hpc] at h <;> cases h
    | callResets k l i s _ hl hpc => rcases h4 l (List.mem_of_getElem? hl) with h | h | ⟨_, h⟩ | h <;> rw [hpc] at h <;> cases h
    | callReplaces k l i o cs _ hl hpc => rcases h4 l (List.mem_of_getElem? hl) with h | h | ⟨_, h⟩ | h <;> rw [hpc] at h <;> cases h
    | callUpdates k l _ hl hpc => rcases h4 l (List.mem_of_getElem? hl) with h | h | ⟨_, h⟩ | h <;> rw [hpc] at h <;> cases h
    | closeAll => exact ⟨h1, h2, rfl, h4⟩
    | closeAgain => exact ⟨h1, h2, rfl, h4⟩
    | graceDone => exact ⟨h1, h2, rfl, h4⟩
    | _ => exact ⟨h1, h2, h3, h4⟩
  exact ⟨key.2.2.1, key.2.2.2⟩

/-- Non-vacuous: the one connection is up, a call that waits goes on waiting. -/
example : ∃ p, run [.task 0 true, .task 0 true, .rd 0, .newCall true, .call 0 0 true, .call 0 0 true] (init 1 false) = some p ∧
    p.scs[0]?.map SC.isReady = some true ∧ p.calls[0]?.map (·.pc) = some (.waiting 0) := ⟨_, rfl, by decide, by decide⟩

/-! ### Waiting for a connection -/

/-- **C43 (waking up)** A call never waits while the list of ready connections is not empty: the broadcast channel it waits on is closed. -/
theorem C43_no_lost_wakeup (n : Nat) (en : Bool) (as : List Act) (p : Pool) (h : run as (init n en) = some p) (hc : p.crashed = false)
    (k : Nat) (l : Call) (g : Nat) (hl : p.calls[k]? = some l) (hg : l.pc = .waiting g) (hr : p.ready ≠ []) (pick : Nat) :
    ∃ q, step p (.call k pick true) = some q ∧ q.calls[k]? = some { l with pc := .start } := by
  have key : ∀ l ∈ p.calls, ∀ g, l.pc = .waiting g → g ≤ p.gen ∧ (g = p.gen → p.ready = []) := by
    refine run_inv (P := fun p => ∀ l ∈ p.calls, ∀ g, l.pc = .waiting g → g ≤ p.gen ∧ (g = p.gen → p.ready = [])) ?_ (by simp [init]) h
    intro p a q hP e
    have hup : ∀ l ∈ p.calls, ∀ g, l.pc = .waiting g → g ≤ (update p).gen ∧ (g = (update p).gen → (update p).ready = []) := by
      intro l hl g hg
      obtain ⟨h1, h2⟩ := hP l hl g hg
      unfold update
      dsimp only
      generalize (if p.open_ = true then (List.range p.scs.length).filter fun i => (p.scs[i]?.map SC.isReady).getD false else []) = r
      by_cases hcond : r ≠ [] ∧ p.ready = []
      · rw [if_pos hcond]
        exact ⟨by omega, fun h => by omega⟩
      · rw [if_neg hcond]
        refine ⟨h1, fun h => ?_⟩
        by_cases hh : r = []
        · exact hh
        · exact absurd ⟨hh, h2 h⟩ hcond
    cases step_eff e with
    | newCall w => exact all_snoc hP (by simp)
    | callSeesClosed k l _ hl => exact all_set hP (by simp)
    | callLooks k l _ hl => exact all_set hP (by simp)
    | callPicks k l _ _ hl => exact all_set hP (by simp)
    | callWaits k l _ hl hpc hr => exact all_set hP (by intro g hg; simp at hg; subst hg; exact ⟨Nat.le_refl _, fun _ => hr⟩)
    | callErr k l _ hl => exact all_set hP (by simp)
    | callWakes k l _ _ hl => exact all_set hP (by simp)
    | callTakes k l i c s _ hl hpc => exact all_set hP (by simp)
    | callOpens k l i c s _ hl hpc => exact all_set hP (by simp)
    | callSent k l i c f s _ hl hpc => exact all_set hP (by simp)
    | callFails k l i c s _ hl hpc => exact all_set hP (by simp)
    | callShut k l i s _ hl hpc => exact all_set hP (by simp)
    | callResets k l i s _ hl hpc => exact all_set hP (by simp)
    | callReplaces k l i o cs _ hl hpc => exact all_set hP (by simp)
    | callUpdates k l _ hl hpc => exact all_set hup (by simp)
    | healthUpdates _ hh => exact hup
    | closeAll => exact fun l hl g hg => ⟨(hP l hl g hg).1, fun _ => rfl⟩
    | closeAgain => exact fun l hl g hg => ⟨(hP l hl g hg).1, fun _ => rfl⟩
    | graceDone => exact fun l hl g hg => ⟨(hP l hl g hg).1, fun _ => rfl⟩
    | _ => exact hP
  obtain ⟨h1, h2⟩ := key l (List.mem_of_getElem? hl) g hg
  have hlt : g < p.gen := by
    rcases Nat.lt_or_ge g p.gen with h | h
    · exact h
    · exact absurd (h2 (by omega)) hr
  refine ⟨setCall p k l .start, ?_, ?_⟩
  · unfold step
    rw [if_neg (by simp [hc])]
    dsimp only [stepCall]
    rw [hl]
    dsimp only
    rw [hg]
    dsimp only
    rw [if_pos rfl, if_pos hlt]
  · have := (List.getElem?_eq_some_iff.1 hl).1
    simp [setCall, this]

/-- A round of health checks on the one connection, with its OpenAck and its reply. -/
def checkOk : List Act :=
  [.round, .health none, .health none, .rd 0, .rd 0, .rd 0, .health (some .serving), .health none, .health none, .health none]

/-- Non-vacuous: a call waits, the connection becomes ready. -/
example : ∃ p, run ([.newCall true, .call 0 0 true, .call 0 0 true, .task 0 true, .task 0 true, .rd 0] ++ checkOk) (init 1 true) = some p ∧
    p.crashed = false ∧ p.calls[0]?.map (·.pc) = some (.waiting 0) ∧ p.ready = [0] := ⟨_, rfl, by decide, by decide, by decide⟩

/-! ### Close -/

/-- **C43 (two closes at once)** `Close` twice at the same time panics. -/
theorem C43_close_twice_panics : ∃ p, run [.newClose false, .newClose false, .close 0, .close 1, .close 0, .close 1] (init 1 true) = some p ∧
    p.crashed = true := ⟨_, rfl, by decide⟩

/-- No call of `Close` looks at the pool while another one is between its look and its close. -/
def orderly (p : Pool) : Act → Bool
  | .close k =>
    match p.ks[k]? with
    | some (.start _) => p.ks.all fun x => match x with | .saw _ => false | _ => true
    | _ => true
  | _ => true

/-- **C43 (repeated Close)** In executions of this kind nothing in the pool panics, however often `Close` and `GracefulClose` are called.
Missing: the condition. -/
theorem C43_no_panic_partial (n : Nat) (en : Bool) (as : List Act) (p : Pool) (h : runIf orderly as (init n en) = some p) : p.crashed = false := by
  let P (p : Pool) : Prop := p.crashed = false ∧ (∀ (i j : Nat) g g', p.ks[i]? = some (.saw g) → p.ks[j]? = some (.saw g') → i = j) ∧
      (∀ (i : Nat) g, p.ks[i]? = some (.saw g) → p.closed = false)
  have key : P p := by
    refine runIf_inv (P := P) ?_ ⟨rfl, by simp [init], by simp [init]⟩ h
    · rintro p a q ⟨h1, h2, h3⟩ ht e
      show q.crashed = false ∧ _
      have hset : ∀ (k : Nat) (pc : KPc), (∀ g, pc ≠ .saw g) → (∀ (i j : Nat) g g', (p.ks.set k pc)[i]? = some (.saw g) → (p.ks.set k pc)[j]? = some (.saw g') → i = j) ∧
          (∀ (i : Nat) g, (p.ks.set k pc)[i]? = some (.saw g) → p.closed = false) := by
        intro k pc hpc
        refine ⟨fun i j g g' hi hj => ?_, fun i g hi => ?_⟩
        · rcases get_set hi with ⟨_, hi⟩ | ⟨_, hi⟩
          · exact absurd hi.symm (hpc g)
          · rcases get_set hj with ⟨_, hj⟩ | ⟨_, hj⟩
            · exact absurd hj.symm (hpc g')
            · exact h2 i j g g' hi hj
        · rcases get_set hi with ⟨_, hi⟩ | ⟨_, hi⟩
          · exact absurd hi.symm (hpc g)
          · exact h3 i g hi
      cases step_eff e with
      | newClose g =>
        refine ⟨h1, fun i j g g' hi hj => ?_, fun i g hi => ?_⟩
        · rcases get_snoc hi with hi | ⟨_, hi⟩
          · rcases get_snoc hj with hj | ⟨_, hj⟩
            · exact h2 i j g g' hi hj
            · cases hj
          · cases hi
        · rcases get_snoc hi with hi | ⟨_, hi⟩
          · exact h3 i g hi
          · cases hi
      | closeEarly k => exact ⟨h1, hset k .early (by simp)⟩
      | closeSees k g hk hc =>
        have hno : ∀ x ∈ p.ks, ∀ g, x ≠ .saw g := by
          unfold orderly at ht
          dsimp only at ht
          rw [hk] at ht
          simp only [List.all_eq_true] at ht
          intro x hx g hg
          have := ht x hx
          rw [hg] at this
          cases this
        refine ⟨h1, fun i j g g' hi hj => ?_, fun i g hi => hc⟩
        rcases get_set hi with ⟨hi, _⟩ | ⟨_, hi⟩
        · rcases get_set hj with ⟨hj, _⟩ | ⟨_, hj⟩
          · omega
          · exact absurd rfl (hno _ (List.mem_of_getElem? hj) g')
        · exact absurd rfl (hno _ (List.mem_of_getElem? hi) g)
      | closePanics k g hk hc => exact absurd (h3 k g hk) (by simp [hc])
      | closeBegins k g pc _ hk hc hpc =>
        have hpc' : ∀ g, pc ≠ .saw g := by
          rcases hpc with rfl | ⟨_, rfl, _⟩ <;> simp
        refine ⟨h1, (hset k pc hpc').1, fun i g' hi => ?_⟩
        exfalso
        rcases get_set hi with ⟨_, hi⟩ | ⟨hne, hi⟩
        · exact absurd hi.symm (hpc' g')
        · exact hne (h2 k i g g' hk hi)
      | closeAll k _ _ pc _ hk =>
        exact ⟨h1, hset k pc (by rcases hk with ⟨_, rfl, _⟩ | ⟨_, _, _, rfl⟩ <;> simp)⟩
      | closeAgain k => exact ⟨h1, hset k .done (by simp)⟩
      | graceCloses k => exact ⟨h1, hset k _ (by simp)⟩
      | graceSkips k => exact ⟨h1, hset k _ (by simp)⟩
      | graceShuts k => exact ⟨h1, hset k _ (by simp)⟩
      | graceDone k => exact ⟨h1, hset k .done (by simp)⟩
      | lateCloses k => exact ⟨h1, hset k .done (by simp)⟩
      | callUpdates => exact ⟨h1, h2, h3⟩
      | healthUpdates => exact ⟨h1, h2, h3⟩
      | _ => exact ⟨h1, h2, h3⟩
  exact key.1

/-- Non-vacuous: `Close` after `GracefulClose`, and once more. -/
example : ∃ p, runIf orderly [.newClose true, .close 0, .close 0, .close 0, .close 0, .newClose false, .close 1] (init 1 true) = some p ∧
    p.ks = [.done, .early] := ⟨_, rfl, by decide⟩

/-! ### After Close -/

/-- SubConns are never added or taken away; one that is shut down stays so and gets no connection. -/
theorem scs_step {p q : Pool} {a : Act} (h : Eff p a q) : q.scs.length = p.scs.length ∧ ∀ (i : Nat) (s' : SC), q.scs[i]? = some s' →
    ∃ s, p.scs[i]? = some s ∧ (s.state = .shutdown → s'.state = .shutdown ∧ s'.conn = s.conn) := by
  have hsame : ∀ (i : Nat) (s' : SC), p.scs[i]? = some s' → ∃ s, p.scs[i]? = some s ∧ (s.state = .shutdown → s'.state = .shutdown ∧ s'.conn = s.conn) :=
    fun i s' h => ⟨s', h, fun k => ⟨k, rfl⟩⟩
  have hset : ∀ (j : Nat) (t t' : SC), p.scs[j]? = some t → (t.state = .shutdown → t'.state = .shutdown ∧ t'.conn = t.conn) →
      ∀ (i : Nat) (s' : SC), (p.scs.set j t')[i]? = some s' → ∃ s, p.scs[i]? = some s ∧ (s.state = .shutdown → s'.state = .shutdown ∧ s'.conn = s.conn) := by
    intro j t t' ht hk i s' hs
    rcases get_set hs with ⟨rfl, rfl⟩ | ⟨_, hs⟩
    · exact ⟨t, ht, hk⟩
    · exact hsame i s' hs
  cases h with
  | dialFail k t s _ _ _ hs hst => exact ⟨by simp, hset t.sc s _ hs (fun h => absurd h hst)⟩
  | taskEnd k t s _ _ _ hs hst => exact ⟨by simp, hset t.sc s _ hs (fun h => absurd h hst)⟩
  | install k t s c _ _ _ hs hst => exact ⟨by simp, hset t.sc s _ hs (fun h => absurd h hst)⟩
  | callResets k l i s _ _ _ hs hst => exact ⟨by simp, hset i s _ hs (fun h => absurd h hst)⟩
  | healthStores i s v _ _ _ hs => exact ⟨by simp, hset i s _ hs (fun h => ⟨h, rfl⟩)⟩
  | graceShuts k i todo s _ _ hs hst => exact ⟨by simp, hset i s _ hs (fun h => absurd h hst)⟩
  | closeAll k scs conns pc _ _ hsh =>
    refine ⟨hsh.len, fun i s' hs => ?_⟩
    obtain ⟨t, ht, h | ⟨hn, h⟩⟩ := hsh.back hs
    · exact ⟨t, ht, fun k => by subst h; exact ⟨k, rfl⟩⟩
    · exact ⟨t, ht, fun k => absurd k hn⟩
  | callUpdates => exact ⟨rfl, hsame⟩
  | healthUpdates => exact ⟨rfl, hsame⟩
  | _ => exact ⟨rfl, hsame⟩

structure Base (p : Pool) : Prop where
  conn : ∀ (i : Nat) (s : SC), p.scs[i]? = some s → s.state = .shutdown → s.conn = none
  down : p.open_ = false → ∀ (i : Nat) (s : SC), p.scs[i]? = some s → s.state = .shutdown
  ended : ∀ pc ∈ p.ks, pc = .done ∨ (∃ h, pc = .timedOut h) → p.open_ = false
  grace : ∀ pc ∈ p.ks, ∀ todo hold, pc = .grace todo hold → p.open_ = true → ∀ (i : Nat) (s : SC), p.scs[i]? = some s → i ∉ todo →
    s.state = .shutdown

theorem base_step {p q : Pool} {a : Act} (hB : Base p) (e : step p a = some q) : Base q := by
  have hE := step_eff e
  obtain ⟨hlen, hscs⟩ := scs_step hE
  have hdown : q.open_ = p.open_ → q.open_ = false → ∀ (i : Nat) (s : SC), q.scs[i]? = some s → s.state = .shutdown := by
    intro ho h i s hs
    obtain ⟨t, ht, hk⟩ := hscs i s hs
    exact (hk (hB.down (ho ▸ h) i t ht)).1
  have hgr : q.open_ = p.open_ → ∀ pc ∈ p.ks, ∀ todo hold, pc = .grace todo hold → q.open_ = true → ∀ (i : Nat) (s : SC), q.scs[i]? = some s →
      i ∉ todo → s.state = .shutdown := by
    intro ho pc hpc todo hold h1 h2 i s hs hi
    obtain ⟨t, ht, hk⟩ := hscs i s hs
    exact (hk (hB.grace pc hpc todo hold h1 (ho ▸ h2) i t ht hi)).1
  have hend : q.open_ = p.open_ → ∀ pc ∈ p.ks, pc = .done ∨ (∃ h, pc = .timedOut h) → q.open_ = false :=
    fun ho pc hpc h => ho.trans (hB.ended pc hpc h)
  have hcset : ∀ (j : Nat) (t' : SC), (t'.state = .shutdown → t'.conn = none) → ∀ (i : Nat) (s : SC), (p.scs.set j t')[i]? = some s →
      s.state = .shutdown → s.conn = none := by
    intro j t' ht i s hs
    rcases get_set hs with ⟨_, rfl⟩ | ⟨_, hs⟩
    · exact ht
    · exact hB.conn i s hs
  cases hE with
  | dialFail k t s _ _ _ hs hst => exact ⟨hcset t.sc _ (by simp), hdown rfl, hend rfl, hgr rfl⟩
  | taskEnd k t s _ _ _ hs hst => exact ⟨hcset t.sc _ (by simp), hdown rfl, hend rfl, hgr rfl⟩
  | install k t s c _ _ _ hs hst => exact ⟨hcset t.sc _ (by simp), hdown rfl, hend rfl, hgr rfl⟩
  | callResets k l i s _ _ _ hs hst => exact ⟨hcset i _ (by simp), hdown rfl, hend rfl, hgr rfl⟩
  | healthStores i s v _ _ _ hs => exact ⟨hcset i _ (by simpa using hB.conn i s hs), hdown rfl, hend rfl, hgr rfl⟩
  | newClose g =>
    exact ⟨hB.conn, hdown rfl, all_snoc (hend rfl) (by rintro (h | ⟨_, h⟩) <;> cases h), all_snoc (hgr rfl) (by intro _ _ h; cases h)⟩
  | closeEarly k => exact ⟨hB.conn, hdown rfl, all_set (hend rfl) (by rintro (h | ⟨_, h⟩) <;> cases h), all_set (hgr rfl) (by intro _ _ h; cases h)⟩
  | closeSees k => exact ⟨hB.conn, hdown rfl, all_set (hend rfl) (by rintro (h | ⟨_, h⟩) <;> cases h), all_set (hgr rfl) (by intro _ _ h; cases h)⟩
  | closeBegins k g pc _ hk hc hpc =>
    refine ⟨hB.conn, hdown rfl, all_set (hend rfl) ?_, all_set (hgr rfl) ?_⟩
    · rcases hpc with rfl | ⟨_, rfl, _⟩ <;> rintro (h | ⟨_, h⟩) <;> cases h
    · intro todo hold h ho i s hs hi
      rcases hpc with rfl | ⟨todo', rfl, hr⟩
      · cases h
      · cases h
        rw [hr ho] at hi
        exact absurd (List.mem_range.2 (List.getElem?_eq_some_iff.1 hs).1) hi
  | closeAll k scs conns pc _ hk hsh =>
    have hall : ∀ (i : Nat) (s : SC), scs[i]? = some s → s.state = .shutdown := by
      intro i s hs
      refine hsh.done i ?_ s hs
      have := (List.getElem?_eq_some_iff.1 hs).1
      rw [hsh.len] at this
      exact List.mem_range.2 this
    refine ⟨?_, fun _ => hall, fun _ _ _ => rfl, ?_⟩
    · intro i s hs hst
      obtain ⟨t, ht, h | ⟨hn, h⟩⟩ := hsh.back hs
      · subst h; exact hB.conn i s ht hst
      · subst h; rfl
    · intro _ _ _ _ _ h; cases h
  | closeAgain k _ hk ho =>
    exact ⟨hB.conn, fun _ => hB.down ho, fun _ _ _ => rfl, by intro _ _ _ _ _ h; cases h⟩
  | graceCloses k todo c conns _ hk =>
    exact ⟨hB.conn, hdown rfl, all_set (hend rfl) (by rintro (h | ⟨_, h⟩) <;> cases h),
      all_set (hgr rfl) (by intro _ _ h; cases h; exact hgr rfl _ (List.mem_of_getElem? hk) _ _ rfl)⟩
  | graceSkips k i todo s _ hk hs hst =>
    refine ⟨hB.conn, hdown rfl, all_set (hend rfl) (by rintro (h | ⟨_, h⟩) <;> cases h), all_set (hgr rfl) ?_⟩
    intro todo' hold h ho j t ht hj
    cases h
    by_cases hij : j = i
    · subst hij
      have ht : p.scs[j]? = some t := ht
      rw [hs] at ht
      cases ht
      exact hst
    · exact hgr rfl _ (List.mem_of_getElem? hk) _ _ rfl ho j t ht (by simp [hij, hj])
  | graceShuts k i todo s _ hk hs hst =>
    refine ⟨hcset i _ (by simp), hdown rfl, all_set (hend rfl) (by rintro (h | ⟨_, h⟩) <;> cases h), all_set (hgr rfl) ?_⟩
    intro todo' hold h ho j t ht hj
    cases h
    by_cases hij : i = j
    · subst hij
      rcases get_set ht with ⟨_, rfl⟩ | ⟨hne, _⟩
      · rfl
      · exact absurd rfl hne
    · exact hgr rfl _ (List.mem_of_getElem? hk) _ _ rfl ho j t ht (by simp [Ne.symm hij, hj])
  | graceDone k _ hk =>
    refine ⟨hB.conn, fun _ i s hs => ?_, fun _ _ _ => rfl, by intro _ _ _ _ _ h; cases h⟩
    by_cases ho : p.open_ = true
    · exact hB.grace _ (List.mem_of_getElem? hk) _ _ rfl ho i s hs (by simp)
    · exact hB.down (by simpa using ho) i s hs
  | lateCloses k hold conns _ hk =>
    exact ⟨hB.conn, hdown rfl, all_set (hend rfl) (fun _ => hend rfl _ (List.mem_of_getElem? hk) (.inr ⟨_, rfl⟩)),
      all_set (hgr rfl) (by intro _ _ h; cases h)⟩
  | callUpdates => exact ⟨hB.conn, hdown rfl, hend rfl, hgr rfl⟩
  | healthUpdates => exact ⟨hB.conn, hdown rfl, hend rfl, hgr rfl⟩
  | _ => exact ⟨hB.conn, hdown rfl, hend rfl, hgr rfl⟩

theorem base_init (n : Nat) (en : Bool) : Base (init n en) := by
  refine ⟨?_, by simp [init], by simp [init], by simp [init]⟩
  intro i s hs hst
  simp only [init, List.getElem?_replicate] at hs
  split at hs <;> cases hs
  cases hst

theorem base_run {n : Nat} {en : Bool} {as : List Act} {p : Pool} (h : run as (init n en) = some p) : Base p :=
  run_inv (fun _ _ _ hB e => base_step hB e) (base_init n en) h

/-- The call has no connection. -/
def NoConn (l : Call) : Prop := (∀ i c, l.pc ≠ .has i c) ∧ (∀ i c f, l.pc ≠ .opening i c f) ∧ ∀ i c, l.pc ≠ .sent i c

/-- **C43 (after Close)** When a call of `Close` or `GracefulClose` has returned, no call of the pool gets a connection any more: not one
that starts later, and not one that has started but has no connection yet. -/
theorem C43_no_call_after_close (n : Nat) (en : Bool) (as bs : List Act) (p q : Pool) (h : run as (init n en) = some p)
    (hd : ∃ pc ∈ p.ks, pc = .done ∨ ∃ h, pc = .timedOut h) (k : Nat) (hk : ∀ l, p.calls[k]? = some l → NoConn l)
    (hq : run bs p = some q) (l : Call) (hl : q.calls[k]? = some l) : NoConn l := by
  obtain ⟨pc, hpc, hd⟩ := hd
  have hB := base_run h
  have key : Base q ∧ q.open_ = false ∧ ∀ l, q.calls[k]? = some l → NoConn l := by
    refine run_inv (P := fun q => Base q ∧ q.open_ = false ∧ ∀ l, q.calls[k]? = some l → NoConn l) ?_ ⟨hB, hB.ended pc hpc hd, hk⟩ hq
    rintro p a q ⟨hB, ho, hk⟩ e
    refine ⟨base_step hB e, ?_⟩
    have hset : ∀ (j : Nat) (l' : Call), NoConn l' → ∀ l, (p.calls.set j l')[k]? = some l → NoConn l := by
      intro j l' hl' l hl
      rcases get_set hl with ⟨_, rfl⟩ | ⟨_, hl⟩
      · exact hl'
      · exact hk l hl
    have hset' : ∀ (j : Nat) (l' l0 : Call), p.calls[j]? = some l0 → ¬ NoConn l0 → ∀ l, (p.calls.set j l')[k]? = some l → NoConn l := by
      intro j l' l0 h0 hn l hl
      rcases get_set hl with ⟨rfl, rfl⟩ | ⟨_, hl⟩
      · exact absurd (hk l0 h0) hn
      · exact hk l hl
    cases step_eff e with
    | newCall w =>
      refine ⟨ho, fun l hl => ?_⟩
      rcases get_snoc hl with hl | ⟨_, rfl⟩
      · exact hk l hl
      · exact ⟨by simp, by simp, by simp⟩
    | callTakes j l i c s _ hl hpc hs hc =>
      have := hB.conn i s hs (hB.down ho i s hs)
      rw [this] at hc
      cases hc
    | callOpens j l i c x _ hl hpc => exact ⟨ho, hset' j _ l hl (fun h => h.1 i c hpc)⟩
    | callSent j l i c f x _ hl hpc => exact ⟨ho, hset' j _ l hl (fun h => h.2.1 i c f hpc)⟩
    | callSeesClosed j => exact ⟨ho, hset j _ ⟨by simp, by simp, by simp⟩⟩
    | callLooks j => exact ⟨ho, hset j _ ⟨by simp, by simp, by simp⟩⟩
    | callPicks j => exact ⟨ho, hset j _ ⟨by simp, by simp, by simp⟩⟩
    | callWaits j => exact ⟨ho, hset j _ ⟨by simp, by simp, by simp⟩⟩
    | callErr j => exact ⟨ho, hset j _ ⟨by simp, by simp, by simp⟩⟩
    | callWakes j => exact ⟨ho, hset j _ ⟨by simp, by simp, by simp⟩⟩
    | callFails j => exact ⟨ho, hset j _ ⟨by simp, by simp, by simp⟩⟩
    | callShut j => exact ⟨ho, hset j _ ⟨by simp, by simp, by simp⟩⟩
    | callResets j => exact ⟨ho, hset j _ ⟨by simp, by simp, by simp⟩⟩
    | callReplaces j => exact ⟨ho, hset j _ ⟨by simp, by simp, by simp⟩⟩
    | callUpdates j => exact ⟨ho, hset j _ ⟨by simp, by simp, by simp⟩⟩
    | closeAll => exact ⟨rfl, hk⟩
    | closeAgain => exact ⟨rfl, hk⟩
    | graceDone => exact ⟨rfl, hk⟩
    | healthUpdates => exact ⟨ho, hk⟩
    | _ => exact ⟨ho, hk⟩
  exact key.2.2 l hl

/-- A connected pool in which the connection passed its first check. -/
def up : List Act := [.task 0 true, .task 0 true, .rd 0] ++ checkOk

/-- Non-vacuous: a call has picked a SubConn when the pool is closed. -/
example : ∃ p, run (up ++ [.newCall false, .call 0 0 true, .call 0 0 true, .newClose false, .close 0, .close 0, .close 0]) (init 1 true) = some p ∧
    p.ks = [.done] ∧ p.calls[0]?.map (·.pc) = some (.picked 0) := ⟨_, rfl, by decide, by decide⟩

/-- After some prefix of the history SubConn `i` satisfies `P`. -/
def Once (n : Nat) (en : Bool) (as : List Act) (i : Nat) (P : SC → Prop) : Prop :=
  ∃ bs cs p s, as = bs ++ cs ∧ run bs (init n en) = some p ∧ p.scs[i]? = some s ∧ P s

theorem Once.later {n : Nat} {en : Bool} {as : List Act} {i : Nat} {P : SC → Prop} (h : Once n en as i P) (a : Act) : Once n en (as ++ [a]) i P := by
  obtain ⟨bs, cs, p, s, rfl, h⟩ := h
  exact ⟨bs, cs ++ [a], p, s, by simp, h⟩

/-- The SubConn a call has chosen. -/
def Call.chosen (l : Call) : Option Nat :=
  match l.pc with
  | .picked i => some i
  | .has i _ => some i
  | .opening i _ _ => some i
  | .sent i _ => some i
  | _ => none

/-- The connection a call has got. -/
def Call.conn (l : Call) : Option (Nat × Nat) :=
  match l.pc with
  | .has i c => some (i, c)
  | .opening i c _ => some (i, c)
  | .sent i c => some (i, c)
  | _ => none

theorem run_hist {n : Nat} {en : Bool} {P : List Act → Pool → Prop} (h0 : P [] (init n en))
    (hs : ∀ as p a q, run as (init n en) = some p → P as p → step p a = some q → P (as ++ [a]) q) :
    ∀ (as : List Act) (p : Pool), run as (init n en) = some p → P as p := by
  intro as
  have key : ∀ (k : Nat) (as : List Act), as.length = k → ∀ p, run as (init n en) = some p → P as p := by
    intro k
    induction k with
    | zero =>
      intro as hk p h
      obtain rfl := List.length_eq_zero_iff.mp hk
      simp only [run, Option.some.injEq] at h
      exact h ▸ h0
    | succ k ih =>
      intro as hk p h
      obtain ⟨bs, a, rfl⟩ : ∃ bs a, as = bs ++ [a] := by
        rcases List.eq_nil_or_concat as with rfl | ⟨bs, a, rfl⟩
        · simp at hk
        · exact ⟨bs, a, by simp⟩
      rw [run_append] at h
      cases hb : run bs (init n en) with
      | none => simp [hb] at h
      | some r =>
        simp only [hb, Option.bind_some, run] at h
        cases hr : step r a with
        | none => simp [hr] at h
        | some q =>
          simp only [hr, Option.bind_some, Option.some.injEq] at h
          subst h
          exact hs bs r a _ hb (ih bs (by simpa using hk) r hb) hr
  exact key _ as rfl

/-- **C43 (chosen among the serving), partial** The SubConn a call has chosen was, at some time before, connected and found to be serving,
and the connection the call has got was the connection of that SubConn. Missing: that this still holds when the call is sent, which is false
(`C43_call_on_unhealthy`). -/
theorem C43_chosen_was_serving_partial (n : Nat) (en : Bool) (as : List Act) (p : Pool) (h : run as (init n en) = some p) (l : Call) (hl : l ∈ p.calls) :
    (∀ i, l.chosen = some i → Once n en as i fun s => s.state = .ready ∧ s.health = .serving) ∧
    (∀ i c, l.conn = some (i, c) → Once n en as i fun s => s.conn = some c) := by
  have key : (∀ i ∈ p.ready, Once n en as i fun s => s.state = .ready ∧ s.health = .serving) ∧
      ∀ l ∈ p.calls, (∀ i, l.chosen = some i → Once n en as i fun s => s.state = .ready ∧ s.health = .serving) ∧
        (∀ i c, l.conn = some (i, c) → Once n en as i fun s => s.conn = some c) := by
    clear hl l
    revert as p h
    refine run_hist ⟨by simp [init], by simp [init]⟩ ?_
    rintro as p a q h ⟨hr, hc⟩ e
    have hr' : ∀ i ∈ p.ready, Once n en (as ++ [a]) i fun s => s.state = .ready ∧ s.health = .serving := fun i hi => (hr i hi).later a
    have hc' : ∀ l ∈ p.calls, (∀ i, l.chosen = some i → Once n en (as ++ [a]) i fun s => s.state = .ready ∧ s.health = .serving) ∧
        (∀ i c, l.conn = some (i, c) → Once n en (as ++ [a]) i fun s => s.conn = some c) :=
      fun l hl => ⟨fun i hi => ((hc l hl).1 i hi).later a, fun i c hi => ((hc l hl).2 i c hi).later a⟩
    have hupd : ∀ i ∈ (update p).ready, Once n en (as ++ [a]) i fun s => s.state = .ready ∧ s.health = .serving := by
      intro i hi
      unfold update at hi
      dsimp only at hi
      split at hi
      · rw [List.mem_filter] at hi
        cases hs : p.scs[i]? with
        | none => simp [hs] at hi
        | some s =>
          refine ⟨as, [a], p, s, rfl, h, hs, ?_⟩
          simpa [hs, SC.isReady] using hi.2
      · simp at hi
    have none' : ∀ (l : Call), l.chosen = none → l.conn = none →
        (∀ i, l.chosen = some i → Once n en (as ++ [a]) i fun s => s.state = .ready ∧ s.health = .serving) ∧
        (∀ i c, l.conn = some (i, c) → Once n en (as ++ [a]) i fun s => s.conn = some c) := by
      intro l h1 h2
      simp [h1, h2]
    cases step_eff e with
    | newCall w => exact ⟨hr', all_snoc hc' (none' _ rfl rfl)⟩
    | callPicks k l i _ hl hpc hi => exact ⟨hr', all_set hc' ⟨by simpa [Call.chosen] using hr' i hi, by simp [Call.conn]⟩⟩
    | callTakes k l i c s _ hl hpc hs hcn =>
      refine ⟨hr', all_set hc' ⟨?_, ?_⟩⟩
      · simpa [Call.chosen] using (hc' l (List.mem_of_getElem? hl)).1 i (by simp [Call.chosen, hpc])
      · intro i' c' h'
        simp only [Call.conn, Option.some.injEq, Prod.mk.injEq] at h'
        obtain ⟨rfl, rfl⟩ := h'
        exact ⟨as, [a], p, s, rfl, h, hs, hcn⟩
    | callOpens k l i c x _ hl hpc =>
      refine ⟨hr', all_set hc' ⟨?_, ?_⟩⟩
      · simpa [Call.chosen] using (hc' l (List.mem_of_getElem? hl)).1 i (by simp [Call.chosen, hpc])
      · simpa [Call.conn] using (hc' l (List.mem_of_getElem? hl)).2 i c (by simp [Call.conn, hpc])
    | callSent k l i c f x _ hl hpc =>
      refine ⟨hr', all_set hc' ⟨?_, ?_⟩⟩
      · simpa [Call.chosen] using (hc' l (List.mem_of_getElem? hl)).1 i (by simp [Call.chosen, hpc])
      · simpa [Call.conn] using (hc' l (List.mem_of_getElem? hl)).2 i c (by simp [Call.conn, hpc])
    | callSeesClosed k => exact ⟨hr', all_set hc' (none' _ rfl rfl)⟩
    | callLooks k => exact ⟨hr', all_set hc' (none' _ rfl rfl)⟩
    | callWaits k => exact ⟨hr', all_set hc' (none' _ rfl rfl)⟩
    | callErr k => exact ⟨hr', all_set hc' (none' _ rfl rfl)⟩
    | callWakes k => exact ⟨hr', all_set hc' (none' _ rfl rfl)⟩
    | callFails k => exact ⟨hr', all_set hc' (none' _ rfl rfl)⟩
    | callShut k => exact ⟨hr', all_set hc' (none' _ rfl rfl)⟩
    | callResets k => exact ⟨hr', all_set hc' (none' _ rfl rfl)⟩
    | callReplaces k => exact ⟨hr', all_set hc' (none' _ rfl rfl)⟩
    | callUpdates k => exact ⟨hupd, all_set hc' (none' _ rfl rfl)⟩
    | healthUpdates => exact ⟨hupd, hc'⟩
    | closeAll => exact ⟨by simp, hc'⟩
    | closeAgain => exact ⟨by simp, hc'⟩
    | graceDone => exact ⟨by simp, hc'⟩
    | _ => exact ⟨hr', hc'⟩
  exact key.2 l hl

/-- Non-vacuous: a call that has got a connection. -/
example : ∃ p, run (up ++ [.newCall false, .call 0 0 true, .call 0 0 true, .call 0 0 true]) (init 1 true) = some p ∧
    p.calls[0]?.bind Call.conn = some (0, 0) := ⟨_, rfl, by decide⟩

/-- **C43 (calls at once rejected)** As soon as the pool is marked closed a call that starts returns an error. -/
theorem C43_new_call_refused (n : Nat) (en : Bool) (as bs : List Act) (p q : Pool) (_ : run as (init n en) = some p) (hc : p.closed = true)
    (hq : run bs p = some q) (k : Nat) (hk : p.calls.length ≤ k) (l : Call) (hl : q.calls[k]? = some l) : l.pc = .start ∨ l.pc = .err := by
  have key : q.closed = true ∧ ∀ l, q.calls[k]? = some l → l.pc = .start ∨ l.pc = .err := by
    refine run_inv (P := fun q => q.closed = true ∧ ∀ l, q.calls[k]? = some l → l.pc = .start ∨ l.pc = .err) ?_
      ⟨hc, fun l hl => by rw [List.getElem?_eq_none hk] at hl; cases hl⟩ hq
    rintro p a q ⟨hc, hk⟩ e
    have hset : ∀ (j : Nat) (l0 l' : Call), p.calls[j]? = some l0 → (l0.pc = .start ∨ l0.pc = .err → l'.pc = .start ∨ l'.pc = .err) →
        ∀ l, (p.calls.set j l')[k]? = some l → l.pc = .start ∨ l.pc = .err := by
      intro j l0 l' h0 hl' l hl
      rcases get_set hl with ⟨rfl, rfl⟩ | ⟨_, hl⟩
      · exact hl' (hk l0 h0)
      · exact hk l hl
    have no : ∀ {l0 : Call} {P : Prop} (_ : l0.pc ≠ .start) (_ : l0.pc ≠ .err), l0.pc = .start ∨ l0.pc = .err → P := by
      rintro l0 P h1 h2 (h | h)
      · exact absurd h h1
      · exact absurd h h2
    cases step_eff e with
    | newCall w =>
      refine ⟨hc, fun l hl => ?_⟩
      rcases get_snoc hl with hl | ⟨_, rfl⟩
      · exact hk l hl
      · exact .inl rfl
    | callSeesClosed j l _ hl => exact ⟨hc, hset j l _ hl (fun _ => .inr rfl)⟩
    | callLooks j l _ hl hpc hcl => rw [hc] at hcl; cases hcl
    | callErr j l _ hl => exact ⟨hc, hset j l _ hl (fun _ => .inr rfl)⟩
    | callWakes j l _ _ hl => exact ⟨hc, hset j l _ hl (fun _ => .inl rfl)⟩
    | callPicks j l _ _ hl hpc => exact ⟨hc, hset j l _ hl (no (by simp [hpc]) (by simp [hpc]))⟩
    | callWaits j l _ hl hpc => exact ⟨hc, hset j l _ hl (no (by simp [hpc]) (by simp [hpc]))⟩
    | callTakes j l _ _ _ _ hl hpc => exact ⟨hc, hset j l _ hl (no (by simp [hpc]) (by simp [hpc]))⟩
    | callOpens j l _ _ _ _ hl hpc => exact ⟨hc, hset j l _ hl (no (by simp [hpc]) (by simp [hpc]))⟩
    | callSent j l _ _ _ _ _ hl hpc => exact ⟨hc, hset j l _ hl (no (by simp [hpc]) (by simp [hpc]))⟩
    | callFails j l _ _ _ _ hl hpc =>
      rcases hpc with ⟨hpc, _⟩ | ⟨_, hpc⟩ <;> exact ⟨hc, hset j l _ hl (no (by simp [hpc]) (by simp [hpc]))⟩
    | callShut j l _ _ _ hl hpc => exact ⟨hc, hset j l _ hl (no (by simp [hpc]) (by simp [hpc]))⟩
    | callResets j l _ _ _ hl hpc => exact ⟨hc, hset j l _ hl (no (by simp [hpc]) (by simp [hpc]))⟩
    | callReplaces j l _ _ _ _ hl hpc => exact ⟨hc, hset j l _ hl (no (by simp [hpc]) (by simp [hpc]))⟩
    | callUpdates j l _ hl hpc => exact ⟨hc, hset j l _ hl (no (by simp [hpc]) (by simp [hpc]))⟩
    | closeBegins => exact ⟨rfl, hk⟩
    | healthUpdates => exact ⟨hc, hk⟩
    | _ => exact ⟨hc, hk⟩
  exact key.2 l hl

/-- Non-vacuous: `Close` has begun, the connections are still up. -/
example : ∃ p, run (up ++ [.newClose false, .close 0, .close 0]) (init 1 true) = some p ∧ p.closed = true ∧ p.ready = [0] ∧
    p.calls.length ≤ 0 := ⟨_, rfl, by decide, by decide, by decide⟩

/-- Two calls wait for their OpenAck on connection 0, which then fails; both report the failure. -/
def twoFail : List Act := up ++ [.newCall false, .newCall false, .call 0 0 true, .call 0 0 true, .call 0 0 true, .call 0 0 true,
  .call 1 0 true, .call 1 0 true, .call 1 0 true, .call 1 0 true, .fail 0, .call 0 0 false]

/-- **C43 (late report)** The second report of the failure of a connection closes the connection that replaced it. -/
theorem C43_late_report_closes_new : ∃ p, run (twoFail ++ [.call 0 0 true, .call 0 0 true, .task 1 true, .task 1 true, .call 1 0 false, .call 1 0 true,
    .call 1 0 true]) (init 1 true) = some p ∧ p.conns[1]? = some { closed := true } ∧ p.ks = [] := ⟨_, rfl, by decide, by decide⟩

/-- **C43 (leak)** When both reports come first, two connections are made and one of them is never closed, not by `Close` either. -/
theorem C43_connection_leaks : ∃ p, run (twoFail ++ [.call 1 0 false, .call 0 0 true, .call 0 0 true, .call 1 0 true, .call 1 0 true,
    .task 1 true, .task 2 true, .task 1 true, .task 2 true, .task 0 true, .task 1 true, .task 2 true, .newClose false, .close 0, .close 0, .close 0])
    (init 1 true) = some p ∧ p.ks = [.done] ∧ (p.tasks.all fun t => t.pc = .done) = true ∧ p.conns[1]?.map (·.closed) = some false :=
  ⟨_, rfl, by decide, by decide, by decide⟩

/-- **C43 (call after Close)** On the leaked connection a call is answered after `Close` has returned. -/
theorem C43_call_sent_after_close : ∃ p q, run (twoFail ++ [.call 1 0 false, .call 0 0 true, .call 0 0 true, .call 1 0 true, .call 1 0 true,
    .task 1 true, .task 2 true, .task 1 true, .rd 1, .call 0 0 true, .newCall false, .call 2 0 true, .call 2 0 true, .call 2 0 true, .call 2 0 true,
    .task 2 true, .newClose false, .close 0, .close 0, .close 0]) (init 1 true) = some p ∧ p.ks = [.done] ∧
    p.calls[2]?.map (·.pc) = some (.opening 0 1 0) ∧ run [.rd 1, .call 2 0 true] p = some q ∧ q.calls[2]?.map (·.pc) = some (.sent 0 1) :=
  ⟨_, _, rfl, by decide, by decide, rfl, by decide⟩

/-- **C43 (unhealthy connection)** A call is sent on a connection that the pool knows to be unhealthy: the list of ready connections is
brought up to date only at the end of a round of checks. -/
theorem C43_call_on_unhealthy : ∃ p, run (up ++ [.rd 0, .round, .health none, .health none, .health none, .health none, .health none, .newCall false,
    .call 0 0 true, .call 0 0 true, .call 0 0 true, .call 0 0 true, .rd 0, .call 0 0 true]) (init 1 true) = some p ∧
    p.scs[0]?.map (·.health) = some .notServing ∧ p.calls[0]?.map (·.pc) = some (.sent 0 0) := ⟨_, rfl, by decide, by decide⟩

/-- Who is responsible for closing connection `c`: a SubConn, a connect task, a call that replaces it, or a call of `Close`. -/
def Held (p : Pool) (c : Nat) : Prop :=
  (∃ (i : Nat) (s : SC), p.scs[i]? = some s ∧ s.conn = some c) ∨
  (∃ (k : Nat) (t : Task), p.tasks[k]? = some t ∧ (t.pc = .dialed c ∨ t.pc = .refused c)) ∨
  (∃ (k : Nat) (l : Call) (i : Nat), p.calls[k]? = some l ∧ l.pc = .replacing i (some c)) ∨
  (∃ (k : Nat) (pc : KPc), p.ks[k]? = some pc ∧ ((∃ todo, pc = .grace todo (some c)) ∨ pc = .timedOut (some c)))

/-- The new connection of a connect task does not take the place of another one. -/
def noOverwrite (p : Pool) : Act → Bool
  | .task k _ => match p.tasks[k]? with
    | some t => match t.pc with
      | .dialed _ => (p.scs[t.sc]?.bind SC.conn).isNone
      | _ => true
    | none => true
  | _ => true

/-- Someone is responsible for each connection that is not closed. -/
def Owned (p : Pool) : Prop := ∀ (c : Nat) (x : CC), p.conns[c]? = some x → x.closed = true ∨ Held p c

theorem Held.mono {p q : Pool} {c : Nat} (h : Held p c)
    (A : ∀ (i : Nat) (s : SC), p.scs[i]? = some s → s.conn = some c → Held q c)
    (B : ∀ (k : Nat) (t : Task), p.tasks[k]? = some t → (t.pc = .dialed c ∨ t.pc = .refused c) → Held q c)
    (C : ∀ (k : Nat) (l : Call) (i : Nat), p.calls[k]? = some l → l.pc = .replacing i (some c) → Held q c)
    (D : ∀ (k : Nat) (pc : KPc), p.ks[k]? = some pc → ((∃ todo, pc = .grace todo (some c)) ∨ pc = .timedOut (some c)) → Held q c) : Held q c := by
  rcases h with ⟨i, s, h1, h2⟩ | ⟨k, t, h1, h2⟩ | ⟨k, l, i, h1, h2⟩ | ⟨k, pc, h1, h2⟩
  · exact A i s h1 h2
  · exact B k t h1 h2
  · exact C k l i h1 h2
  · exact D k pc h1 h2

theorem set_keeps {α : Type} {l : List α} {k j : Nat} {a b x : α} (hk : l[k]? = some a) (hj : l[j]? = some x) :
    (j = k ∧ x = a ∧ (l.set k b)[j]? = some b) ∨ (j ≠ k ∧ (l.set k b)[j]? = some x) := by
  by_cases h : k = j
  · subst h
    rw [hk] at hj
    cases hj
    exact .inl ⟨rfl, rfl, by rw [List.getElem?_set_self (List.getElem?_eq_some_iff.1 hk).1]⟩
  · exact .inr ⟨Ne.symm h, by rw [List.getElem?_set_ne h, hj]⟩

theorem snoc_keeps {α : Type} {l : List α} {j : Nat} {b x : α} (hj : l[j]? = some x) : (l ++ [b])[j]? = some x := by
  rw [List.getElem?_append_left (List.getElem?_eq_some_iff.1 hj).1, hj]

theorem owned_step {p q : Pool} {a : Act} (hO : Owned p) (hok : noOverwrite p a = true) (e : step p a = some q) : Owned q := by
  have same : ∀ {p q : Pool} {c : Nat}, q.scs = p.scs → q.tasks = p.tasks → q.calls = p.calls → q.ks = p.ks → Held p c → Held q c := by
    intro p q c h1 h2 h3 h4 h
    unfold Held at *
    rw [h1, h2, h3, h4]
    exact h
  -- a step of a call that does not hold a connection
  have hcall : ∀ {k : Nat} {l : Call} {pc : CPc} {q : Pool}, p.calls[k]? = some l → (∀ i o, l.pc ≠ .replacing i o) → q.scs = p.scs → q.tasks = p.tasks →
      q.calls = p.calls.set k { l with pc := pc } → q.ks = p.ks → ∀ c, Held p c → Held q c := by
    intro k l pc q hl hn h1 h2 h3 h4 c h
    refine h.mono (fun i s a b => .inl ⟨i, s, by rw [h1]; exact a, b⟩) (fun j t a b => .inr (.inl ⟨j, t, by rw [h2]; exact a, b⟩)) ?_
      (fun j t a b => .inr (.inr (.inr ⟨j, t, by rw [h4]; exact a, b⟩)))
    intro j l' i a b
    rcases set_keeps (b := { l with pc := pc }) hl a with ⟨_, rfl, _⟩ | ⟨_, h'⟩
    · exact absurd b (hn _ _)
    · exact .inr (.inr (.inl ⟨j, l', i, by rw [h3]; exact h', b⟩))
  -- a step that changes a SubConn but not its connection
  have hsc : ∀ {i : Nat} {s s' : SC} {q : Pool}, p.scs[i]? = some s → s'.conn = s.conn → q.scs = p.scs.set i s' →
      (∀ (k : Nat) (t : Task) (c : Nat), p.tasks[k]? = some t → (t.pc = .dialed c ∨ t.pc = .refused c) → q.tasks[k]? = some t) → q.calls = p.calls →
      q.ks = p.ks → ∀ c, Held p c → Held q c := by
    intro i s s' q hs hc h1 h2 h3 h4 c h
    refine h.mono ?_ (fun j t a b => .inr (.inl ⟨j, t, h2 j t c a b, b⟩)) (fun j l i a b => .inr (.inr (.inl ⟨j, l, i, by rw [h3]; exact a, b⟩)))
      (fun j t a b => .inr (.inr (.inr ⟨j, t, by rw [h4]; exact a, b⟩)))
    intro j t a b
    rcases set_keeps (b := s') hs a with ⟨rfl, rfl, h'⟩ | ⟨_, h'⟩
    · exact .inl ⟨j, s', by rw [h1]; exact h', hc.trans b⟩
    · exact .inl ⟨j, t, by rw [h1]; exact h', b⟩
  -- a step of a task
  have htask : ∀ {k : Nat} {t : Task} {pc : TPc} {q : Pool} (c : Nat), p.tasks[k]? = some t → q.scs = p.scs →
      q.tasks = p.tasks.set k { t with pc := pc } → q.calls = p.calls → q.ks = p.ks → ((t.pc = .dialed c ∨ t.pc = .refused c) → Held q c) →
      Held p c → Held q c := by
    intro k t pc q c ht h1 h2 h3 h4 hh h
    refine h.mono (fun i s a b => .inl ⟨i, s, by rw [h1]; exact a, b⟩) ?_ (fun j l i a b => .inr (.inr (.inl ⟨j, l, i, by rw [h3]; exact a, b⟩)))
      (fun j t a b => .inr (.inr (.inr ⟨j, t, by rw [h4]; exact a, b⟩)))
    intro j t' a b
    rcases set_keeps (b := { t with pc := pc }) ht a with ⟨_, rfl, _⟩ | ⟨_, h'⟩
    · exact hh b
    · exact .inr (.inl ⟨j, t', by rw [h2]; exact h', b⟩)
  -- a step of a closer
  have hclose : ∀ {k : Nat} {pc0 pc : KPc} {q : Pool} (c : Nat), p.ks[k]? = some pc0 → q.scs = p.scs → q.tasks = p.tasks → q.calls = p.calls →
      q.ks = p.ks.set k pc → (((∃ todo, pc0 = .grace todo (some c)) ∨ pc0 = .timedOut (some c)) → Held q c) → Held p c → Held q c := by
    intro k pc0 pc q c hk h1 h2 h3 h4 hh h
    refine h.mono (fun i s a b => .inl ⟨i, s, by rw [h1]; exact a, b⟩) (fun j t a b => .inr (.inl ⟨j, t, by rw [h2]; exact a, b⟩))
      (fun j l i a b => .inr (.inr (.inl ⟨j, l, i, by rw [h3]; exact a, b⟩))) ?_
    intro j pc' a b
    rcases set_keeps (b := pc) hk a with ⟨_, rfl, _⟩ | ⟨_, h'⟩
    · exact hh b
    · exact .inr (.inr (.inr ⟨j, pc', by rw [h4]; exact h', b⟩))
  -- connections only get closed
  have hcl : ∀ {conns : List CC}, Closes p.conns conns → ∀ (c : Nat) (y : CC), conns[c]? = some y → ∃ x, p.conns[c]? = some x ∧ (x.closed = true → y.closed = true) := by
    intro conns h c y hy
    obtain ⟨x, hx⟩ : ∃ x, p.conns[c]? = some x := ⟨_, List.getElem?_eq_getElem (h.1 ▸ (List.getElem?_eq_some_iff.1 hy).1)⟩
    obtain ⟨m, hm⟩ := h.2 c x hx
    rw [hm] at hy
    cases hy
    exact ⟨x, hx, fun h => by simp [h]⟩
  have hcset : ∀ {d : Nat} {x x' : CC}, p.conns[d]? = some x → (x.closed = true → x'.closed = true) → ∀ (c : Nat) (y : CC), (p.conns.set d x')[c]? = some y →
      ∃ x, p.conns[c]? = some x ∧ (x.closed = true → y.closed = true) := by
    intro d x x' hx hc c y hy
    rcases get_set hy with ⟨rfl, rfl⟩ | ⟨_, hy⟩
    · exact ⟨x, hx, hc⟩
    · exact ⟨y, hy, id⟩
  -- put together
  have fin : ∀ {q : Pool}, (∀ (c : Nat) (y : CC), q.conns[c]? = some y → ∃ x, p.conns[c]? = some x ∧ (x.closed = true → y.closed = true)) →
      (∀ (c : Nat) (y : CC), q.conns[c]? = some y → Held p c → y.closed = true ∨ Held q c) → Owned q := by
    intro q h1 h2 c y hy
    obtain ⟨x, hx, hc⟩ := h1 c y hy
    rcases hO c x hx with h | h
    · exact .inl (hc h)
    · exact h2 c y hy h
  have idc : ∀ (c : Nat) (y : CC), p.conns[c]? = some y → ∃ x, p.conns[c]? = some x ∧ (x.closed = true → y.closed = true) := fun c y h => ⟨y, h, id⟩
  cases step_eff e with
  | dialOk k t ht hpc =>
    intro c y hy
    rcases get_snoc hy with hy | ⟨hc, rfl⟩
    · rcases hO c y hy with h | h
      · exact .inl h
      · exact .inr (htask c ht (by rfl) (by rfl) (by rfl) (by rfl) (by simp [hpc]) h)
    · subst hc
      exact .inr (.inr (.inl ⟨k, _, by rw [List.getElem?_set_self (List.getElem?_eq_some_iff.1 ht).1], .inl rfl⟩))
  | dialFail k t s _ ht hpc hs => exact fin idc (fun c y _ h => .inr (hsc (s' := { s with state := .transient }) hs (by rfl) (by rfl) (fun _ _ _ a _ => by exact a) (by rfl) (by rfl) c h))
  | taskEnd k t s _ ht hpc hs =>
    refine fin idc (fun c y _ h => .inr (hsc (s' := { s with state := .transient }) hs (by rfl) (by rfl) ?_ (by rfl) (by rfl) c h))
    intro j t' c a b
    rcases set_keeps (b := { t with pc := .done }) ht a with ⟨_, rfl, _⟩ | ⟨_, h'⟩
    · rw [hpc] at b; rcases b with b | b <;> cases b
    · exact h'
  | taskQuit k t s _ ht hpc => exact fin idc (fun c y _ h => .inr (htask c ht (by rfl) (by rfl) (by rfl) (by rfl) (by simp [hpc]) h))
  | refuse k t s d b ht hpc =>
    refine fin idc (fun c y _ h => .inr (htask c ht (by rfl) (by rfl) (by rfl) (by rfl) ?_ h))
    intro h'
    rw [hpc] at h'
    rcases h' with h' | h' <;> cases h'
    exact .inr (.inl ⟨k, _, by rw [List.getElem?_set_self (List.getElem?_eq_some_iff.1 ht).1], .inr rfl⟩)
  | install k t s d b ht hpc hs hst =>
    have hnone : s.conn = none := by
      simpa [noOverwrite, ht, hpc, hs] using hok
    refine fin idc (fun c y _ h => .inr ?_)
    refine h.mono ?_ ?_ (fun j l i a b => .inr (.inr (.inl ⟨j, l, i, a, b⟩))) (fun j t a b => .inr (.inr (.inr ⟨j, t, a, b⟩)))
    · intro j s' a b
      rcases set_keeps (b := { conn := some d, state := .ready, health := .serving }) hs a with ⟨_, rfl, _⟩ | ⟨_, h'⟩
      · rw [hnone] at b; cases b
      · exact .inl ⟨j, s', h', b⟩
    · intro j t' a b
      rcases set_keeps (b := { t with pc := .installed d }) ht a with ⟨_, rfl, _⟩ | ⟨_, h'⟩
      · rw [hpc] at b
        rcases b with b | b <;> cases b
        exact .inl ⟨_, _, by rw [List.getElem?_set_self (List.getElem?_eq_some_iff.1 hs).1], rfl⟩
      · exact .inr (.inl ⟨j, t', h', b⟩)
  | refused k t d x b ht hpc hx =>
    refine fin (hcset hx (fun _ => rfl)) (fun c y hy h => ?_)
    by_cases hcd : d = c
    · subst hcd
      rcases get_set hy with ⟨_, rfl⟩ | ⟨hne, _⟩
      · exact .inl rfl
      · exact absurd rfl hne
    · refine .inr (htask c ht (by rfl) (by rfl) (by rfl) (by rfl) ?_ h)
      intro h'
      rw [hpc] at h'
      rcases h' with h' | h' <;> cases h'
      exact absurd rfl hcd
  | installed k t d x b ht hpc hx => exact fin (hcset hx id) (fun c y _ h => .inr (htask c ht (by rfl) (by rfl) (by rfl) (by rfl) (by simp [hpc]) h))
  | rdTop d x hx => exact fin (hcset hx id) (fun c y _ h => .inr (same (by rfl) (by rfl) (by rfl) (by rfl) h))
  | rdFrame d x hx => exact fin (hcset hx id) (fun c y _ h => .inr (same (by rfl) (by rfl) (by rfl) (by rfl) h))
  | fail d x hx => exact fin (hcset hx (fun _ => rfl)) (fun c y _ h => .inr (same (by rfl) (by rfl) (by rfl) (by rfl) h))
  | newCall w =>
    exact fin idc (fun c y _ h => .inr (h.mono (fun i s a b => .inl ⟨i, s, a, b⟩) (fun j t a b => .inr (.inl ⟨j, t, a, b⟩))
      (fun j l i a b => .inr (.inr (.inl ⟨j, l, i, snoc_keeps a, b⟩))) (fun j t a b => .inr (.inr (.inr ⟨j, t, a, b⟩)))))
  | newClose g =>
    exact fin idc (fun c y _ h => .inr (h.mono (fun i s a b => .inl ⟨i, s, a, b⟩) (fun j t a b => .inr (.inl ⟨j, t, a, b⟩))
      (fun j l i a b => .inr (.inr (.inl ⟨j, l, i, a, b⟩))) (fun j t a b => .inr (.inr (.inr ⟨j, t, snoc_keeps a, b⟩)))))
  | callSeesClosed k l _ hl hpc => exact fin idc (fun c y _ h => .inr (hcall hl (by simp [hpc]) (by rfl) (by rfl) (by rfl) (by rfl) c h))
  | callLooks k l _ hl hpc => exact fin idc (fun c y _ h => .inr (hcall hl (by simp [hpc]) (by rfl) (by rfl) (by rfl) (by rfl) c h))
  | callPicks k l _ _ hl hpc => exact fin idc (fun c y _ h => .inr (hcall hl (by simp [hpc]) (by rfl) (by rfl) (by rfl) (by rfl) c h))
  | callWaits k l _ hl hpc => exact fin idc (fun c y _ h => .inr (hcall hl (by simp [hpc]) (by rfl) (by rfl) (by rfl) (by rfl) c h))
  | callErr k l _ hl _ _ hpc => exact fin idc (fun c y _ h => .inr (hcall hl hpc (by rfl) (by rfl) (by rfl) (by rfl) c h))
  | callWakes k l _ _ hl hpc => exact fin idc (fun c y _ h => .inr (hcall hl (by simp [hpc]) (by rfl) (by rfl) (by rfl) (by rfl) c h))
  | callTakes k l _ _ _ _ hl hpc => exact fin idc (fun c y _ h => .inr (hcall hl (by simp [hpc]) (by rfl) (by rfl) (by rfl) (by rfl) c h))
  | callOpens k l _ _ _ _ hl hpc => exact fin idc (fun c y _ h => .inr (hcall hl (by simp [hpc]) (by rfl) (by rfl) (by rfl) (by rfl) c h))
  | callFails k l _ _ _ _ hl hpc =>
    rcases hpc with ⟨hpc, _⟩ | ⟨_, hpc⟩ <;> exact fin idc (fun c y _ h => .inr (hcall hl (by simp [hpc]) (by rfl) (by rfl) (by rfl) (by rfl) c h))
  | callSent k l _ _ _ _ _ hl hpc => exact fin idc (fun c y _ h => .inr (hcall hl (by simp [hpc]) (by rfl) (by rfl) (by rfl) (by rfl) c h))
  | callShut k l _ _ _ hl hpc => exact fin idc (fun c y _ h => .inr (hcall hl (by simp [hpc]) (by rfl) (by rfl) (by rfl) (by rfl) c h))
  | callUpdates k l _ hl hpc => exact fin idc (fun c y _ h => .inr (hcall hl (by simp [hpc]) (by rfl) (by rfl) (by rfl) (by rfl) c h))
  | callResets k l i s _ hl hpc hs hst =>
    refine fin idc (fun c y _ h => .inr ?_)
    refine h.mono ?_ (fun j t a b => .inr (.inl ⟨j, t, a, b⟩)) ?_ (fun j t a b => .inr (.inr (.inr ⟨j, t, a, b⟩)))
    · intro j s' a b
      rcases set_keeps (b := { conn := none, state := .connecting, health := .unknown }) hs a with ⟨_, rfl, _⟩ | ⟨_, h'⟩
      · exact .inr (.inr (.inl ⟨k, _, i, by rw [List.getElem?_set_self (List.getElem?_eq_some_iff.1 hl).1], by rw [b]⟩))
      · exact .inl ⟨j, s', h', b⟩
    · intro j l' i' a b
      rcases set_keeps (b := { l with pc := .replacing i s.conn }) hl a with ⟨_, rfl, _⟩ | ⟨_, h'⟩
      · rw [hpc] at b; cases b
      · exact .inr (.inr (.inl ⟨j, l', i', h', b⟩))
  | callReplaces k l i old conns _ hl hpc hcs hold =>
    refine fin (hcl hcs) (fun c y hy h => ?_)
    obtain ⟨x, hx, _⟩ := hcl hcs c y hy
    by_cases ho : old = some c
    · have := hold c x ho hx
      have hy : conns[c]? = some y := hy
      rw [this] at hy
      cases hy
      exact .inl rfl
    · refine .inr (h.mono (fun i s a b => .inl ⟨i, s, a, b⟩) (fun j t a b => .inr (.inl ⟨j, t, snoc_keeps a, b⟩)) ?_
        (fun j t a b => .inr (.inr (.inr ⟨j, t, a, b⟩))))
      intro j l' i' a b
      rcases set_keeps (b := { l with pc := .updating }) hl a with ⟨_, rfl, _⟩ | ⟨_, h'⟩
      · rw [hpc] at b
        cases b
        exact absurd rfl ho
      · exact .inr (.inr (.inl ⟨j, l', i', h', b⟩))
  | round => exact fin idc (fun c y _ h => .inr (same (by rfl) (by rfl) (by rfl) (by rfl) h))
  | healthMoves => exact fin idc (fun c y _ h => .inr (same (by rfl) (by rfl) (by rfl) (by rfl) h))
  | healthAsks => exact fin idc (fun c y _ h => .inr (same (by rfl) (by rfl) (by rfl) (by rfl) h))
  | healthUpdates => exact fin idc (fun c y _ h => .inr (same (by rfl) (by rfl) (by rfl) (by rfl) h))
  | healthStores i s v _ _ _ hs => exact fin idc (fun c y _ h => .inr (hsc (s' := { s with health := v }) hs (by rfl) (by rfl) (fun _ _ _ a _ => by exact a) (by rfl) (by rfl) c h))
  | closeEarly k g _ hk => exact fin idc (fun c y _ h => .inr (hclose c hk (by rfl) (by rfl) (by rfl) (by rfl) (by simp) h))
  | closeSees k g hk => exact fin idc (fun c y _ h => .inr (hclose c hk (by rfl) (by rfl) (by rfl) (by rfl) (by simp) h))
  | closePanics => exact fin idc (fun c y _ h => .inr (same (by rfl) (by rfl) (by rfl) (by rfl) h))
  | closeBegins k g pc _ hk => exact fin idc (fun c y _ h => .inr (hclose c hk (by rfl) (by rfl) (by rfl) (by rfl) (by simp) h))
  | closeAll k scs conns pc _ hk hsh =>
    refine fin (hcl hsh.closes) (fun c y hy h => ?_)
    obtain ⟨x, hx, _⟩ := hcl hsh.closes c y hy
    rcases h with ⟨i, s, h1, h2⟩ | ⟨j, t, h1, h2⟩ | ⟨j, l, i, h1, h2⟩ | ⟨j, pc', h1, h2⟩
    · rcases hsh.each i s h1 with h' | ⟨hn, h'⟩
      · exact .inr (.inl ⟨i, s, h', h2⟩)
      · have := hsh.closed i s c x h1 h2 h' hn hx
        have hy : conns[c]? = some y := hy
        rw [this] at hy
        cases hy
        exact .inl rfl
    · exact .inr (.inr (.inl ⟨j, t, h1, h2⟩))
    · exact .inr (.inr (.inr (.inl ⟨j, l, i, h1, h2⟩)))
    · refine .inr (.inr (.inr (.inr ?_)))
      rcases hk with ⟨hk, _⟩ | ⟨todo, hold, hk, rfl⟩
      · rcases set_keeps (b := pc) hk h1 with ⟨_, rfl, _⟩ | ⟨_, h'⟩
        · rcases h2 with ⟨_, h2⟩ | h2 <;> cases h2
        · exact ⟨j, pc', h', h2⟩
      · rcases set_keeps (b := .timedOut hold) hk h1 with ⟨_, rfl, h'⟩ | ⟨_, h'⟩
        · rcases h2 with ⟨_, h2⟩ | h2
          · cases h2
            exact ⟨j, _, h', .inr rfl⟩
          · cases h2
        · exact ⟨j, pc', h', h2⟩
  | closeAgain k _ hk => exact fin idc (fun c y _ h => .inr (hclose c hk (by rfl) (by rfl) (by rfl) (by rfl) (by simp) h))
  | graceCloses k todo d conns _ hk hcs hd =>
    refine fin (hcl hcs) (fun c y hy h => ?_)
    obtain ⟨x, hx, _⟩ := hcl hcs c y hy
    by_cases hcd : d = c
    · subst hcd
      have := hd x hx
      have hy : conns[d]? = some y := hy
      rw [this] at hy
      cases hy
      exact .inl rfl
    · refine .inr (hclose c hk (by rfl) (by rfl) (by rfl) (by rfl) ?_ h)
      rintro (⟨_, h'⟩ | h') <;> cases h'
      exact absurd rfl hcd
  | graceSkips k i todo s _ hk => exact fin idc (fun c y _ h => .inr (hclose c hk (by rfl) (by rfl) (by rfl) (by rfl) (by simp) h))
  | graceShuts k i todo s _ hk hs hst =>
    refine fin idc (fun c y _ h => .inr ?_)
    refine h.mono ?_ (fun j t a b => .inr (.inl ⟨j, t, a, b⟩)) (fun j l i a b => .inr (.inr (.inl ⟨j, l, i, a, b⟩))) ?_
    · intro j s' a b
      rcases set_keeps (b := { s with state := .shutdown, conn := none }) hs a with ⟨_, rfl, _⟩ | ⟨_, h'⟩
      · exact .inr (.inr (.inr ⟨k, _, by rw [List.getElem?_set_self (List.getElem?_eq_some_iff.1 hk).1], .inl ⟨todo, by rw [b]⟩⟩))
      · exact .inl ⟨j, s', h', b⟩
    · intro j pc' a b
      rcases set_keeps (b := .grace todo s.conn) hk a with ⟨_, rfl, _⟩ | ⟨_, h'⟩
      · rcases b with ⟨_, b⟩ | b <;> cases b
      · exact .inr (.inr (.inr ⟨j, pc', h', b⟩))
  | graceDone k _ hk => exact fin idc (fun c y _ h => .inr (hclose c hk (by rfl) (by rfl) (by rfl) (by rfl) (by simp) h))
  | lateCloses k hold conns _ hk hcs hd =>
    refine fin (hcl hcs) (fun c y hy h => ?_)
    obtain ⟨x, hx, _⟩ := hcl hcs c y hy
    by_cases hcd : hold = some c
    · have := hd c x hcd hx
      have hy : conns[c]? = some y := hy
      rw [this] at hy
      cases hy
      exact .inl rfl
    · refine .inr (hclose c hk (by rfl) (by rfl) (by rfl) (by rfl) ?_ h)
      rintro (⟨_, h'⟩ | h') <;> cases h'
      exact absurd rfl hcd

/-- **C43 (Close closes everything), partial** When `Close` or `GracefulClose` has returned and the goroutines that were connecting, replacing or
closing a connection are done, every connection the pool ever made is closed. Missing: executions in which a connect task puts its connection
in the place of another one; there it is false (`C43_connection_leaks`). -/
theorem C43_all_closed_partial (n : Nat) (en : Bool) (as : List Act) (p : Pool) (h : runIf noOverwrite as (init n en) = some p)
    (hd : ∃ pc ∈ p.ks, pc = .done ∨ ∃ h, pc = .timedOut h) (ht : ∀ t ∈ p.tasks, t.pc = .done) (hl : ∀ l ∈ p.calls, ∀ i o, l.pc ≠ .replacing i o)
    (hk : ∀ pc ∈ p.ks, ∀ c, (∀ todo, pc ≠ .grace todo (some c)) ∧ pc ≠ .timedOut (some c)) : ∀ x ∈ p.conns, x.closed = true := by
  have key : Base p ∧ Owned p := runIf_inv (P := fun p => Base p ∧ Owned p) (fun _ _ _ hP hok e => ⟨base_step hP.1 e, owned_step hP.2 hok e⟩)
    ⟨base_init n en, fun c x hx => by simp [init] at hx⟩ h
  obtain ⟨pc, hpc, hd⟩ := hd
  intro x hx
  obtain ⟨c, hc⟩ := List.mem_iff_getElem?.1 hx
  rcases key.2 c x hc with h | ⟨i, s, h1, h2⟩ | ⟨k, t, h1, h2⟩ | ⟨k, l, i, h1, h2⟩ | ⟨k, pc', h1, h2⟩
  · exact h
  · have := key.1.conn i s h1 (key.1.down (key.1.ended pc hpc hd) i s h1)
    rw [this] at h2
    cases h2
  · rw [ht t (List.mem_of_getElem? h1)] at h2
    rcases h2 with h2 | h2 <;> cases h2
  · exact absurd h2 (hl l (List.mem_of_getElem? h1) _ _)
  · rcases h2 with ⟨todo, h2⟩ | h2
    · exact absurd h2 ((hk pc' (List.mem_of_getElem? h1) c).1 todo)
    · exact absurd h2 (hk pc' (List.mem_of_getElem? h1) c).2

/-- Non-vacuous: a pool of two, one connection replaced, one made while the pool is closed. -/
example : ∃ p, runIf noOverwrite (up ++ [.health none, .newCall false, .call 0 0 true, .call 0 0 true, .call 0 0 true, .call 0 0 true, .fail 0, .call 0 0 false,
    .call 0 0 true, .call 0 0 true, .call 0 0 true, .task 0 true, .task 2 true, .task 2 true, .task 2 true, .task 1 true, .newClose false, .close 0, .close 0,
    .close 0, .task 1 true, .task 1 true]) (init 2 true) = some p ∧ p.conns.length = 3 ∧ p.ks = [.done] ∧ (∀ t ∈ p.tasks, t.pc = .done) ∧
    (∀ l ∈ p.calls, l.pc = .err) := ⟨_, rfl, by decide, by decide, by decide, by decide⟩

/-! ### C65: does the pool keep its connections working? -/

/-- Nobody is about to replace the connection of SubConn `i`, which is `c` and is lost. -/
structure Lost (i c : Nat) (sent : Nat → Prop) (p : Pool) : Prop where
  sc : ∀ s : SC, p.scs[i]? = some s → s.conn = some c ∨ (s.state = .shutdown ∧ s.conn = none)
  cc : ∃ x : CC, p.conns[c]? = some x ∧ x.closed = true ∧ x.fatal = true
  tasks : ∀ t ∈ p.tasks, t.sc = i → t.pc = .done
  has : ∀ l ∈ p.calls, ∀ d, l.pc = .has i d → d = c
  calls : ∀ l ∈ p.calls, (∀ d f, l.pc ≠ .opening i d f) ∧ l.pc ≠ .failed i ∧ ∀ o, l.pc ≠ .replacing i o
  sent : ∀ (k : Nat) (l : Call) (d : Nat), p.calls[k]? = some l → l.pc = .sent i d → sent k

theorem lost_step {i c : Nat} {S : Nat → Prop} {p q : Pool} {a : Act} (hL : Lost i c S p) (e : step p a = some q) : Lost i c S q := by
  obtain ⟨x0, hx0, hcl0, hf0⟩ := hL.cc
  -- the call fields when call `k` changes
  have hcalls : ∀ {k : Nat} {l : Call} {pc : CPc}, (∀ d, pc = .has i d → d = c) → (∀ d f, pc ≠ .opening i d f) → pc ≠ .failed i →
      (∀ o, pc ≠ .replacing i o) → (∀ d, pc ≠ .sent i d) →
      (∀ l' ∈ p.calls.set k { l with pc := pc }, ∀ d, l'.pc = .has i d → d = c) ∧
      (∀ l' ∈ p.calls.set k { l with pc := pc }, (∀ d f, l'.pc ≠ .opening i d f) ∧ l'.pc ≠ .failed i ∧ ∀ o, l'.pc ≠ .replacing i o) ∧
      (∀ (j : Nat) (l' : Call) (d : Nat), (p.calls.set k { l with pc := pc })[j]? = some l' → l'.pc = .sent i d → S j) := by
    intro k l pc h1 h2 h3 h4 h5
    refine ⟨all_set hL.has h1, all_set hL.calls ⟨h2, h3, h4⟩, ?_⟩
    intro j l' d hl' hpc
    rcases get_set hl' with ⟨_, rfl⟩ | ⟨_, hl'⟩
    · exact absurd hpc (h5 d)
    · exact hL.sent j l' d hl' hpc
  have hcc : ∀ {d : Nat} {x x' : CC}, p.conns[d]? = some x → (x.closed = true → x'.closed = true) → (x.fatal = true → x'.fatal = true) →
      ∃ x : CC, (p.conns.set d x')[c]? = some x ∧ x.closed = true ∧ x.fatal = true := by
    intro d x x' hx h1 h2
    rcases set_keeps (b := x') hx hx0 with ⟨_, rfl, h⟩ | ⟨_, h⟩
    · exact ⟨x', h, h1 hcl0, h2 hf0⟩
    · exact ⟨x0, h, hcl0, hf0⟩
  have hcs : ∀ {conns : List CC}, Closes p.conns conns → ∃ x : CC, conns[c]? = some x ∧ x.closed = true ∧ x.fatal = true := by
    intro conns h
    obtain ⟨k, hk⟩ := h.2 c x0 hx0
    exact ⟨_, hk, by simp [hcl0], hf0⟩
  have hscs : ∀ {j : Nat} {s' : SC}, (j = i → s'.conn = some c ∨ (s'.state = .shutdown ∧ s'.conn = none)) → ∀ s : SC, (p.scs.set j s')[i]? = some s →
      s.conn = some c ∨ (s.state = .shutdown ∧ s.conn = none) := by
    intro j s' h s hs
    rcases get_set hs with ⟨hj, rfl⟩ | ⟨_, hs⟩
    · exact h hj
    · exact hL.sc s hs
  cases step_eff e with
  | dialOk k t ht hpc =>
    exact ⟨hL.sc, ⟨x0, snoc_keeps hx0, hcl0, hf0⟩, all_set hL.tasks (fun h => by
      have := hL.tasks t (List.mem_of_getElem? ht) h
      rw [hpc] at this; cases this), hL.has, hL.calls, hL.sent⟩
  | dialFail k t s _ ht hpc =>
    exact ⟨hscs (fun h => by
      have := hL.tasks t (List.mem_of_getElem? ht) h
      rw [hpc] at this; cases this), hL.cc, hL.tasks, hL.has, hL.calls, hL.sent⟩
  | taskQuit k t s _ ht hpc => exact ⟨hL.sc, hL.cc, all_set hL.tasks (fun _ => rfl), hL.has, hL.calls, hL.sent⟩
  | taskEnd k t s _ ht hpc =>
    exact ⟨hscs (fun h => by
      have := hL.tasks t (List.mem_of_getElem? ht) h
      rw [hpc] at this; cases this), hL.cc, all_set hL.tasks (fun _ => rfl), hL.has, hL.calls, hL.sent⟩
  | refuse k t s d b ht hpc =>
    exact ⟨hL.sc, hL.cc, all_set hL.tasks (fun h => by
      have := hL.tasks t (List.mem_of_getElem? ht) h
      rw [hpc] at this; cases this), hL.has, hL.calls, hL.sent⟩
  | install k t s d b ht hpc =>
    have no : t.sc = i → False := fun h => by
      have := hL.tasks t (List.mem_of_getElem? ht) h
      rw [hpc] at this; cases this
    exact ⟨hscs (fun h => (no h).elim), hL.cc, all_set hL.tasks (fun h => (no h).elim), hL.has, hL.calls, hL.sent⟩
  | refused k t d x b ht hpc hx => exact ⟨hL.sc, hcc hx (fun _ => rfl) id, all_set hL.tasks (fun _ => rfl), hL.has, hL.calls, hL.sent⟩
  | installed k t d x b ht hpc hx => exact ⟨hL.sc, hcc hx id id, all_set hL.tasks (fun _ => rfl), hL.has, hL.calls, hL.sent⟩
  | rdTop d x hx => exact ⟨hL.sc, hcc hx id id, hL.tasks, hL.has, hL.calls, hL.sent⟩
  | rdFrame d x hx => exact ⟨hL.sc, hcc hx id id, hL.tasks, hL.has, hL.calls, hL.sent⟩
  | fail d x hx => exact ⟨hL.sc, hcc hx (fun _ => rfl) (fun _ => rfl), hL.tasks, hL.has, hL.calls, hL.sent⟩
  | newCall w =>
    refine ⟨hL.sc, hL.cc, hL.tasks, all_snoc hL.has (by simp), all_snoc hL.calls (by simp), ?_⟩
    intro j l d hl hpc
    rcases get_snoc hl with hl | ⟨_, rfl⟩
    · exact hL.sent j l d hl hpc
    · cases hpc
  | callSeesClosed k l =>
    obtain ⟨h1, h2, h3⟩ := hcalls (k := k) (l := l) (pc := .err) (by simp) (by simp) (by simp) (by simp) (by simp)
    exact ⟨hL.sc, hL.cc, hL.tasks, h1, h2, h3⟩
  | callLooks k l =>
    obtain ⟨h1, h2, h3⟩ := hcalls (k := k) (l := l) (pc := .looking) (by simp) (by simp) (by simp) (by simp) (by simp)
    exact ⟨hL.sc, hL.cc, hL.tasks, h1, h2, h3⟩
  | callPicks k l j =>
    obtain ⟨h1, h2, h3⟩ := hcalls (k := k) (l := l) (pc := .picked j) (by simp) (by simp) (by simp) (by simp) (by simp)
    exact ⟨hL.sc, hL.cc, hL.tasks, h1, h2, h3⟩
  | callWaits k l =>
    obtain ⟨h1, h2, h3⟩ := hcalls (k := k) (l := l) (pc := .waiting p.gen) (by simp) (by simp) (by simp) (by simp) (by simp)
    exact ⟨hL.sc, hL.cc, hL.tasks, h1, h2, h3⟩
  | callErr k l =>
    obtain ⟨h1, h2, h3⟩ := hcalls (k := k) (l := l) (pc := .err) (by simp) (by simp) (by simp) (by simp) (by simp)
    exact ⟨hL.sc, hL.cc, hL.tasks, h1, h2, h3⟩
  | callWakes k l =>
    obtain ⟨h1, h2, h3⟩ := hcalls (k := k) (l := l) (pc := .start) (by simp) (by simp) (by simp) (by simp) (by simp)
    exact ⟨hL.sc, hL.cc, hL.tasks, h1, h2, h3⟩
  | callTakes k l j d s _ hl hpc hs hd =>
    obtain ⟨h1, h2, h3⟩ := hcalls (k := k) (l := l) (pc := .has j d) (by
      intro d' h
      cases h
      rcases hL.sc s hs with h | ⟨_, h⟩
      · rw [hd] at h; cases h; rfl
      · rw [hd] at h; cases h) (by simp) (by simp) (by simp) (by simp)
    exact ⟨hL.sc, hL.cc, hL.tasks, h1, h2, h3⟩
  | callOpens k l j d x _ hl hpc hx hxc =>
    obtain ⟨h1, h2, h3⟩ := hcalls (k := k) (l := l) (pc := .opening j d x.frames) (by simp) (by
      intro d' f h
      cases h
      have := hL.has l (List.mem_of_getElem? hl) d hpc
      subst this
      rw [hx0] at hx
      cases hx
      rw [hcl0] at hxc
      cases hxc) (by simp) (by simp) (by simp)
    exact ⟨hL.sc, hL.cc, hL.tasks, h1, h2, h3⟩
  | callFails k l j d x _ hl hpc hx hxc =>
    obtain ⟨h1, h2, h3⟩ := hcalls (k := k) (l := l) (pc := .failed j) (by simp) (by simp) (by
      intro h
      cases h
      rcases hpc with ⟨hpc, hf⟩ | ⟨f, hpc⟩
      · have := hL.has l (List.mem_of_getElem? hl) d hpc
        subst this
        rw [hx0] at hx
        cases hx
        rw [hf0] at hf
        cases hf
      · exact (hL.calls l (List.mem_of_getElem? hl)).1 d f hpc) (by simp) (by simp)
    exact ⟨hL.sc, hL.cc, hL.tasks, h1, h2, h3⟩
  | callSent k l j d f x _ hl hpc =>
    obtain ⟨h1, h2, h3⟩ := hcalls (k := k) (l := l) (pc := .sent j d) (by simp) (by simp) (by simp) (by simp) (by
      intro d' h
      cases h
      exact (hL.calls l (List.mem_of_getElem? hl)).1 d f hpc)
    exact ⟨hL.sc, hL.cc, hL.tasks, h1, h2, h3⟩
  | callShut k l =>
    obtain ⟨h1, h2, h3⟩ := hcalls (k := k) (l := l) (pc := .updating) (by simp) (by simp) (by simp) (by simp) (by simp)
    exact ⟨hL.sc, hL.cc, hL.tasks, h1, h2, h3⟩
  | callResets k l j s _ hl hpc =>
    have no : j ≠ i := fun h => by subst h; exact (hL.calls l (List.mem_of_getElem? hl)).2.1 hpc
    obtain ⟨h1, h2, h3⟩ := hcalls (k := k) (l := l) (pc := .replacing j s.conn) (by simp) (by simp) (by simp) (by simp [no]) (by simp)
    exact ⟨hscs (fun h => absurd h no), hL.cc, hL.tasks, h1, h2, h3⟩
  | callReplaces k l j old conns _ hl hpc hcon =>
    have no : j ≠ i := fun h => by subst h; exact (hL.calls l (List.mem_of_getElem? hl)).2.2 old hpc
    obtain ⟨h1, h2, h3⟩ := hcalls (k := k) (l := l) (pc := .updating) (by simp) (by simp) (by simp) (by simp) (by simp)
    exact ⟨hL.sc, hcs hcon, all_snoc hL.tasks (fun h => absurd h no), h1, h2, h3⟩
  | callUpdates k l =>
    obtain ⟨h1, h2, h3⟩ := hcalls (k := k) (l := l) (pc := .err) (by simp) (by simp) (by simp) (by simp) (by simp)
    exact ⟨hL.sc, hL.cc, hL.tasks, h1, h2, h3⟩
  | healthStores j s v _ _ _ hs =>
    exact ⟨hscs (fun h => by subst h; exact hL.sc s hs), hL.cc, hL.tasks, hL.has, hL.calls, hL.sent⟩
  | graceShuts k j todo s _ hk hs => exact ⟨hscs (fun _ => .inr ⟨rfl, rfl⟩), hL.cc, hL.tasks, hL.has, hL.calls, hL.sent⟩
  | closeAll k scs conns pc _ hk hsh =>
    refine ⟨?_, hcs hsh.closes, hL.tasks, hL.has, hL.calls, hL.sent⟩
    intro s hs
    obtain ⟨t, ht, h | ⟨hn, h⟩⟩ := hsh.back hs
    · subst h; exact hL.sc s ht
    · subst h; exact .inr ⟨rfl, rfl⟩
  | graceCloses k todo d conns _ hk hcon => exact ⟨hL.sc, hcs hcon, hL.tasks, hL.has, hL.calls, hL.sent⟩
  | lateCloses k hold conns _ hk hcon => exact ⟨hL.sc, hcs hcon, hL.tasks, hL.has, hL.calls, hL.sent⟩
  | healthUpdates => exact ⟨hL.sc, hL.cc, hL.tasks, hL.has, hL.calls, hL.sent⟩
  | _ => exact ⟨hL.sc, hL.cc, hL.tasks, hL.has, hL.calls, hL.sent⟩

/-- **C65 (lost connections stay)** When the connection of a SubConn failed while no call was being opened on it (and nobody was replacing it),
it is never replaced: the SubConn keeps the dead connection until the pool is closed, and no call is sent through that SubConn any more. -/
theorem C65_lost_connection_stays (n : Nat) (en : Bool) (as bs : List Act) (p q : Pool) (_ : run as (init n en) = some p) (i c : Nat)
    (hp : Lost i c (fun k => ∃ l d, p.calls[k]? = some l ∧ l.pc = .sent i d) p) (hq : run bs p = some q) :
    (∀ s : SC, q.scs[i]? = some s → s.conn = some c ∨ s.state = .shutdown) ∧
    ∀ (k : Nat) (l : Call) (d : Nat), q.calls[k]? = some l → l.pc = .sent i d → ∃ l' d', p.calls[k]? = some l' ∧ l'.pc = .sent i d' := by
  have key : Lost i c (fun k => ∃ l d, p.calls[k]? = some l ∧ l.pc = .sent i d) q := run_inv (fun _ _ _ h e => lost_step h e) hp hq
  exact ⟨fun s hs => (key.sc s hs).imp_right (·.1), key.sent⟩

/-- Non-vacuous: an idle pool whose connection fails. -/
example : ∃ p, run (up ++ [.task 0 true, .fail 0]) (init 1 true) = some p ∧ p.closed = false ∧ p.ready = [0] ∧
    Lost 0 0 (fun k => ∃ l d, p.calls[k]? = some l ∧ l.pc = .sent 0 d) p :=
  ⟨_, rfl, by decide, by decide, ⟨fun s hs => .inl (by cases hs; rfl), ⟨_, rfl, rfl, rfl⟩, by decide,
    (fun l h => by have h : l ∈ ([] : List Call) := h; simp at h), (fun l h => by have h : l ∈ ([] : List Call) := h; simp at h),
    (fun k l d h => by have h : ([] : List Call)[k]? = some l := h; simp at h)⟩⟩

/-- The context of connection `c` has ended, `F` frames were handled, at most one more will be. -/
structure Fading (c F : Nat) (p : Pool) : Prop where
  cc : ∃ x : CC, p.conns[c]? = some x ∧ x.ctxDone = true ∧ F ≤ x.frames ∧ x.frames ≤ F + 1 ∧ (x.rd = .reading → x.frames = F)
  h : ∀ i f todo, p.h = .asking i c f todo → F ≤ f

theorem fading_step {c F : Nat} {p q : Pool} {a : Act} (hF : Fading c F p) (e : step p a = some q) : Fading c F q := by
  obtain ⟨x0, hx0, hd, hlo, hhi, hr⟩ := hF.cc
  have hcc : ∀ {d : Nat} {x x' : CC}, p.conns[d]? = some x → (x.ctxDone = true → x'.ctxDone = true) → x'.frames = x.frames → x'.rd = x.rd →
      ∃ x : CC, (p.conns.set d x')[c]? = some x ∧ x.ctxDone = true ∧ F ≤ x.frames ∧ x.frames ≤ F + 1 ∧ (x.rd = .reading → x.frames = F) := by
    intro d x x' hx h1 h2 h3
    rcases set_keeps (b := x') hx hx0 with ⟨_, rfl, h⟩ | ⟨_, h⟩
    · exact ⟨x', h, h1 hd, by omega, by omega, by rw [h2, h3]; exact hr⟩
    · exact ⟨x0, h, hd, hlo, hhi, hr⟩
  have hcs : ∀ {conns : List CC}, Closes p.conns conns →
      ∃ x : CC, conns[c]? = some x ∧ x.ctxDone = true ∧ F ≤ x.frames ∧ x.frames ≤ F + 1 ∧ (x.rd = .reading → x.frames = F) := by
    intro conns h
    obtain ⟨k, hk⟩ := h.2 c x0 hx0
    exact ⟨_, hk, hd, hlo, hhi, hr⟩
  cases step_eff e with
  | dialOk k t ht hpc => exact ⟨⟨x0, snoc_keeps hx0, hd, hlo, hhi, hr⟩, hF.h⟩
  | refused k t d x b ht hpc hx => exact ⟨hcc hx (fun _ => rfl) rfl rfl, hF.h⟩
  | installed k t d x b ht hpc hx => exact ⟨hcc hx (fun _ => rfl) rfl rfl, hF.h⟩
  | rdTop d x hx hrd =>
    refine ⟨?_, hF.h⟩
    rcases set_keeps (b := { x with rd := if x.closed || x.ctxDone then .exited else .reading }) hx hx0 with ⟨_, rfl, h⟩ | ⟨_, h⟩
    · exact ⟨_, h, hd, hlo, hhi, by simp [hd]⟩
    · exact ⟨x0, h, hd, hlo, hhi, hr⟩
  | rdFrame d x hx hrd =>
    refine ⟨?_, hF.h⟩
    rcases set_keeps (b := { x with rd := .top, frames := x.frames + 1 }) hx hx0 with ⟨_, rfl, h⟩ | ⟨_, h⟩
    · have := hr hrd
      exact ⟨_, h, hd, by simp only; omega, by simp only; omega, by simp⟩
    · exact ⟨x0, h, hd, hlo, hhi, hr⟩
  | fail d x hx => exact ⟨hcc hx id rfl rfl, hF.h⟩
  | callReplaces k l j old conns _ hl hpc hcon => exact ⟨hcs hcon, hF.h⟩
  | round => exact ⟨hF.cc, by intro _ _ _ h; cases h⟩
  | healthMoves h' _ _ hn => exact ⟨hF.cc, fun i f todo h => absurd h (hn i c f todo)⟩
  | healthAsks i d x todo _ hh hx =>
    refine ⟨hF.cc, fun j f todo' h => ?_⟩
    cases h
    rw [hx0] at hx
    cases hx
    exact hlo
  | healthStores i s v h' _ _ _ hn => exact ⟨hF.cc, fun i f todo h => absurd h (hn i c f todo)⟩
  | healthUpdates => exact ⟨hF.cc, by intro _ _ _ h; cases h⟩
  | closeAll k scs conns pc _ hk hsh => exact ⟨hcs hsh.closes, hF.h⟩
  | graceCloses k todo d conns _ hk hcon => exact ⟨hcs hcon, hF.h⟩
  | lateCloses k hold conns _ hk hcon => exact ⟨hcs hcon, hF.h⟩
  | callUpdates => exact ⟨hF.cc, hF.h⟩
  | _ => exact ⟨hF.cc, hF.h⟩

/-- **C65 (one more frame)** Once the task that made a connection has returned, the connection handles at most one more frame. -/
theorem C65_one_frame_after_connect (n : Nat) (en : Bool) (as bs : List Act) (p q : Pool) (_ : run as (init n en) = some p) (c : Nat) (x y : CC)
    (hx : p.conns[c]? = some x) (hd : x.ctxDone = true) (hq : run bs p = some q) (hy : q.conns[c]? = some y) : y.frames ≤ x.frames + 1 := by
  have key : ∃ x' : CC, q.conns[c]? = some x' ∧ x'.ctxDone = true ∧ x'.frames ≤ x.frames + 1 ∧ (x'.rd = .reading → x'.frames = x.frames) := by
    refine run_inv (P := fun q => ∃ x' : CC, q.conns[c]? = some x' ∧ x'.ctxDone = true ∧ x'.frames ≤ x.frames + 1 ∧
      (x'.rd = .reading → x'.frames = x.frames)) ?_ ⟨x, hx, hd, by omega, fun _ => rfl⟩ hq
    rintro p a q ⟨x0, hx0, hd, hhi, hr⟩ e
    have hcc : ∀ {d : Nat} {z z' : CC}, p.conns[d]? = some z → (z.ctxDone = true → z'.ctxDone = true) → z'.frames = z.frames → z'.rd = z.rd →
        ∃ x' : CC, (p.conns.set d z')[c]? = some x' ∧ x'.ctxDone = true ∧ x'.frames ≤ x.frames + 1 ∧ (x'.rd = .reading → x'.frames = x.frames) := by
      intro d z z' hz h1 h2 h3
      rcases set_keeps (b := z') hz hx0 with ⟨_, rfl, h⟩ | ⟨_, h⟩
      · exact ⟨z', h, h1 hd, by omega, by rw [h2, h3]; exact hr⟩
      · exact ⟨x0, h, hd, hhi, hr⟩
    have hcs : ∀ {conns : List CC}, Closes p.conns conns →
        ∃ x' : CC, conns[c]? = some x' ∧ x'.ctxDone = true ∧ x'.frames ≤ x.frames + 1 ∧ (x'.rd = .reading → x'.frames = x.frames) := by
      intro conns h
      obtain ⟨k, hk⟩ := h.2 c x0 hx0
      exact ⟨_, hk, hd, hhi, hr⟩
    cases step_eff e with
    | dialOk k t ht hpc => exact ⟨x0, snoc_keeps hx0, hd, hhi, hr⟩
    | refused k t d z b ht hpc hz => exact hcc hz (fun _ => rfl) rfl rfl
    | installed k t d z b ht hpc hz => exact hcc hz (fun _ => rfl) rfl rfl
    | rdTop d z hz hrd =>
      rcases set_keeps (b := { z with rd := if z.closed || z.ctxDone then .exited else .reading }) hz hx0 with ⟨_, rfl, h⟩ | ⟨_, h⟩
      · exact ⟨_, h, hd, hhi, by simp [hd]⟩
      · exact ⟨x0, h, hd, hhi, hr⟩
    | rdFrame d z hz hrd =>
      rcases set_keeps (b := { z with rd := .top, frames := z.frames + 1 }) hz hx0 with ⟨_, rfl, h⟩ | ⟨_, h⟩
      · have := hr hrd
        exact ⟨_, h, hd, by simp only; omega, by simp⟩
      · exact ⟨x0, h, hd, hhi, hr⟩
    | fail d z hz => exact hcc hz id rfl rfl
    | callReplaces k l j old conns _ hl hpc hcon => exact hcs hcon
    | closeAll k scs conns pc _ hk hsh => exact hcs hsh.closes
    | graceCloses k todo d conns _ hk hcon => exact hcs hcon
    | lateCloses k hold conns _ hk hcon => exact hcs hcon
    | callUpdates => exact ⟨x0, hx0, hd, hhi, hr⟩
    | healthUpdates => exact ⟨x0, hx0, hd, hhi, hr⟩
    | _ => exact ⟨x0, hx0, hd, hhi, hr⟩
  obtain ⟨x', h1, _, h2, _⟩ := key
  rw [h1] at hy
  cases hy
  exact h2

/-- **C65 (checks fail)** Once the task that made a connection has returned, no health check that starts later on this connection can be
answered, whatever the server does: it can only end with an error, which makes the connection not ready. -/
theorem C65_checks_fail_after_connect (n : Nat) (en : Bool) (as bs : List Act) (p q : Pool) (_ : run as (init n en) = some p) (c : Nat) (x : CC)
    (hx : p.conns[c]? = some x) (hd : x.ctxDone = true) (hh : ∀ i f todo, p.h ≠ .asking i c f todo) (hq : run bs p = some q)
    (i f : Nat) (todo : List Nat) (ha : q.h = .asking i c f todo) (s : Health) : step q (.health (some s)) = none := by
  have key : Fading c x.frames q := run_inv (fun _ _ _ h e => fading_step h e)
    ⟨⟨x, hx, hd, by omega, by omega, fun _ => rfl⟩, fun i f todo h => absurd h (hh i f todo)⟩ hq
  obtain ⟨y, hy, _, hlo, hhi, _⟩ := key.cc
  have hf := key.h i f todo ha
  simp only [step, stepHealth, ha, hy]
  split
  · rfl
  · rw [if_neg (by omega)]

/-- Non-vacuous: the read loop reads, the connect task returns, a round starts. -/
example : ∃ p q, run [.task 0 true, .task 0 true, .rd 0, .task 0 true] (init 1 true) = some p ∧ p.conns[0]? = some { ctxDone := true, rd := .reading } ∧
    p.h = .idle ∧ run [.round, .health none, .health none, .rd 0] p = some q ∧ q.h = .asking 0 0 0 [] ∧ q.conns[0]?.map (·.frames) = some 1 :=
  ⟨_, _, rfl, by decide, by decide, rfl, by decide, by decide⟩

/-- **C65 (healthy server)** With a server that accepts every connection and answers everything, the pool ends with nothing ready: the only
connection is open, marked not serving, its read loop is gone, nothing is connecting, and by `C65_checks_fail_after_connect` no check will
ever succeed. -/
theorem C65_healthy_server_dropped : ∃ p, run [.task 0 true, .task 0 true, .rd 0, .task 0 true, .round, .health none, .health none, .rd 0, .rd 0,
    .health none, .health none, .health none, .health none, .health none] (init 1 true) = some p ∧
    p.scs = [{ conn := some 0, state := .ready, health := .notServing }] ∧ p.ready = [] ∧ p.h = .idle ∧ (p.tasks.all fun t => t.pc = .done) = true ∧
    p.conns = [{ closed := false, fatal := false, ctxDone := true, rd := .exited, frames := 1 }] :=
  ⟨_, rfl, by decide, by decide, by decide, by decide, by decide⟩

end Claw.Pool
