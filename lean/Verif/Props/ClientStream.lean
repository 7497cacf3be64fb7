import Verif.Lemmas.ClientSteps
import Verif.Props.ClientConn

/-!
# C64: what the reader of a stream sees

The iterator of a stream ends when the channel of the session is closed. The channel is closed by the Close frame of the server and also
when the read loop ends.
-/

namespace Claw.CliConn

open Claw.SrvConn (lookup remove lookup_mem mem_remove mem_insert)

set_option linter.unusedSimpArgs false

/-! ### Specification -/

/-- The payloads for session `sid` among the frames read, without those the client throws away. -/
def since (sid : UInt32) (as : List Act) : List Pl :=
  as.filterMap fun a => match a with
    | .read (.payload s p false) => if s = sid then some p else none
    | _ => none

/-- What of them is for the user: an empty payload that ends the stream is not. -/
def userData (ps : List Pl) : List Bytes := (ps.filter fun p => !(p.last && p.data == [])).map Pl.data

/-- The error of a Close frame. -/
def errOf (code : Nat) : Option Nat := if code = 0 then none else some code

/-! ### Where it fails -/

/-- **C64 (truncation)** The connection is lost after the first payload of a stream: the iterator ends as it does at the end of the
stream, without error. -/
theorem C64_truncated_without_error : ∃ (as : List Act) (c : Conn) (s : Sess),
    run as {} = some c ∧ c.heap[0]? = some s ∧ s.yielded = [[1]] ∧ s.it = .done (some false) none ∧
      (∀ code, Act.read (.close 7 code) ∉ as) ∧ c.closed = true :=
  ⟨[.open, .sendOpen 0, .read (.ack 0 7 true false), .openReady 0, .read (.payload 7 ⟨[1], false⟩ false), .tick, .close, .exit, .recv 0,
    .recv 0, .iterTick 0], _, _, rfl, rfl, by decide, by decide, by intro code; simp, by decide⟩

/-- **C64 (gap)** A payload that is too large for the client, or cannot be decompressed, is left out: the reader sees the payload before
it, the one after it and a stream that ended without error. -/
theorem C64_gap_without_error : ∃ (as : List Act) (c : Conn) (s : Sess),
    run as {} = some c ∧ c.heap[0]? = some s ∧ s.yielded = [[1], [3]] ∧ s.it = .done (some false) none ∧
      Act.read (.payload 7 ⟨[2], false⟩ true) ∈ as ∧ c.closed = false :=
  ⟨[.open, .sendOpen 0, .read (.ack 0 7 true false), .openReady 0, .read (.payload 7 ⟨[1], false⟩ false), .tick,
    .read (.payload 7 ⟨[2], false⟩ true), .read (.payload 7 ⟨[3], false⟩ false), .tick, .read (.close 7 0), .tick, .tick, .recv 0,
    .recv 0, .recv 0, .iterTick 0], _, _, rfl, rfl, by decide, by decide, by decide, by decide⟩

/-- **C64 (cancelled)** The context of the reader ends in the middle of a stream: the iterator ends without error. -/
theorem C64_cancelled_without_error : ∃ (as : List Act) (c : Conn) (s : Sess),
    run as {} = some c ∧ c.heap[0]? = some s ∧ s.yielded = [[1]] ∧ s.it = .done none none ∧ c.closed = false :=
  ⟨[.open, .sendOpen 0, .read (.ack 0 7 true false), .openReady 0, .read (.payload 7 ⟨[1], false⟩ false), .tick, .recv 0, .iterCancel 0,
    .iterTick 0, .iterTick 0], _, _, rfl, rfl, by decide, by decide, by decide⟩

/-! ### What a step does besides the sessions -/

theorem closed_mono {c c' : Conn} {a : Act} (hinv : Inv c) (e : step c a = some c') (h : c'.closed = false) : c.closed = false := by
  have hsend : ∀ (c : Conn) m, (send c m).closed = c.closed := by
    intro c m; obtain ⟨o, eo⟩ := send_frame c m; rw [eo]
  have hcl : ∀ c : Conn, (closeConn c).closed = true := by
    intro c; obtain ⟨heap, e, k⟩ := closeConn_like c; rw [e]
  have hcd := fun c => (checkDrained_rest c).2.2.2.2.2.1
  cases hc : c.closed with
  | false => rfl
  | true =>
    exfalso
    have hcr : ∀ (c : Conn) i, (closeRecv c i).closed = c.closed := by
      intro c i; unfold closeRecv; repeat' split
      all_goals rfl
    have hcc : ∀ (c : Conn) i, (closeCancel c i).closed = c.closed := by
      intro c i; unfold closeCancel; repeat' split
      all_goals rfl
    have hex : ∀ (l : List (UInt32 × Nat)) (c : Conn), (l.foldl (fun c e => closeRecv c e.2) c).closed = c.closed := by
      intro l
      induction l with
      | nil => intro c; rfl
      | cons e l ih => intro c; rw [List.foldl_cons, ih, hcr]
    have : c'.closed = true := by
      unfold step at e
      rw [if_neg (by simp [hinv.nocrash])] at e
      cases a with
      | read f =>
        dsimp only at e
        split at e <;> simp only [Option.some.injEq, reduceCtorEq] at e
        subst e
        cases f with
        | goAway => exact hcl c
        | other => exact hc
        | _ =>
          unfold read
          try unfold handleAck
          dsimp only
          repeat' split
          all_goals first
            | exact hc
            | exact (hcd _).trans hc
      | tick =>
        dsimp only [tick] at e
        repeat' split at e
        all_goals try (simp at e; done)
        all_goals
          simp only [Option.some.injEq] at e
          subst e
        all_goals first
          | exact hc
          | exact (hcr _ _).trans hc
      | exit =>
        dsimp only at e
        split at e <;> simp only [Option.some.injEq, reduceCtorEq] at e
        subst e
        exact (hex _ _).trans hc
      | recv j => obtain ⟨t, t', h1, h2, h3, rfl⟩ := onSess_cases e; exact hc
      | iterCancel j => obtain ⟨t, t', h1, h2, h3, rfl⟩ := onSess_cases e; exact hc
      | iterTick j => obtain ⟨t, t', h1, h2, h3, rfl⟩ := onSess_cases e; exact hc
      | _ =>
        dsimp only at e
        repeat' split at e
        all_goals try (simp at e; done)
        all_goals
          simp only [Option.some.injEq] at e
          subst e
        all_goals first
          | exact hc
          | exact hcl _
          | exact (hsend _ _).trans hc
          | exact (hsend _ _).trans ((hcc _ _).trans hc)
    rw [h] at this
    cases this

/-- Only a session that was acknowledged is handed out. -/
theorem accepted_back {c c' : Conn} {a : Act} (hinv : Inv c) (e : step c a = some c') {i : Nat} (h : c'.openers[i]? = some .accepted) :
    c.openers[i]? = some .accepted ∨ ∃ s, c.heap[i]? = some s ∧ s.ready = true := by
  have hsend : ∀ (c : Conn) m, (send c m).openers = c.openers := by
    intro c m; obtain ⟨o, eo⟩ := send_frame c m; rw [eo]
  have hcl : ∀ c : Conn, (closeConn c).openers = c.openers := by
    intro c; obtain ⟨heap, e, k⟩ := closeConn_like c; rw [e]
  have hcd := fun c => (checkDrained_rest c).2.2.2.2.2.2
  have hcr : ∀ (c : Conn) i, (closeRecv c i).openers = c.openers := by
    intro c i; unfold closeRecv; repeat' split
    all_goals rfl
  have hcc : ∀ (c : Conn) i, (closeCancel c i).openers = c.openers := by
    intro c i; unfold closeCancel; repeat' split
    all_goals rfl
  have hex : ∀ (l : List (UInt32 × Nat)) (c : Conn), (l.foldl (fun c e => closeRecv c e.2) c).openers = c.openers := by
    intro l
    induction l with
    | nil => intro c; rfl
    | cons e l ih => intro c; rw [List.foldl_cons, ih, hcr]
  have hset : ∀ (l : List OPc) j (o : OPc), (l.set j o)[i]? = some .accepted → o ≠ .accepted → l[i]? = some .accepted := by
    intro l j o hh ho
    by_cases hj : j = i
    · subst hj
      rw [List.getElem?_set] at hh
      rw [if_pos rfl] at hh
      split at hh
      · simp only [Option.some.injEq] at hh; exact absurd hh ho
      · cases hh
    · rwa [List.getElem?_set_ne hj] at hh
  unfold step at e
  rw [if_neg (by simp [hinv.nocrash])] at e
  cases a with
  | read f =>
    dsimp only at e
    split at e <;> simp only [Option.some.injEq, reduceCtorEq] at e
    left
    rw [← h]
    subst e
    cases f with
    | goAway => exact congrArg (·[i]?) (hcl c).symm
    | other => rfl
    | _ =>
      unfold read
      try unfold handleAck
      dsimp only
      repeat' split
      all_goals first
        | rfl
        | (simp only [hcd]; done)
  | tick =>
    dsimp only [tick] at e
    left
    rw [← h]
    repeat' split at e
    all_goals try (simp at e; done)
    all_goals
      simp only [Option.some.injEq] at e
      subst e
    all_goals first
      | rfl
      | exact congrArg (·[i]?) (hcr _ _).symm
  | exit =>
    dsimp only at e
    split at e <;> simp only [Option.some.injEq, reduceCtorEq] at e
    subst e
    left
    rw [← h]
    unfold exit
    rw [hex]
  | recv j => obtain ⟨t, t', h1, h2, h3, rfl⟩ := onSess_cases e; exact .inl h
  | iterCancel j => obtain ⟨t, t', h1, h2, h3, rfl⟩ := onSess_cases e; exact .inl h
  | iterTick j => obtain ⟨t, t', h1, h2, h3, rfl⟩ := onSess_cases e; exact .inl h
  | openReady j =>
    dsimp only at e
    split at e <;> try (simp at e; done)
    rename_i s ho hs
    split at e <;> try (simp at e; done)
    rename_i hr
    simp only [Option.some.injEq] at e
    subst e
    by_cases hj : j = i
    · subst hj
      exact .inr ⟨s, hs, hr⟩
    · dsimp only at h
      rw [List.getElem?_set_ne hj] at h
      exact .inl h
  | «open» =>
    dsimp only at e
    repeat' split at e
    all_goals
      simp only [Option.some.injEq] at e
      subst e
    · exact .inl h
    · exact .inl h
    · dsimp only at h
      left
      rw [List.getElem?_append] at h
      split at h
      · exact h
      · exfalso
        rw [List.getElem?_singleton] at h
        split at h <;> simp at h
  | _ =>
    dsimp only at e
    repeat' split at e
    all_goals try (simp at e; done)
    all_goals
      simp only [Option.some.injEq] at e
      subst e
    all_goals first
      | exact .inl h
      | exact .inl (hset _ _ _ h (by simp))
      | (simp only [hsend, hcc, hcl] at h; exact .inl h)

/-- Only the read loop touches the map of sessions and its own place. -/
theorem other_rest {c c' : Conn} {a : Act} (hinv : Inv c) (e : step c a = some c') (h1 : ∀ f, a ≠ .read f) (h2 : a ≠ .tick)
    (h3 : a ≠ .giveUp) (h4 : a ≠ .exit) : c'.pc = c.pc ∧ c'.sessions = c.sessions := by
  have hsend : ∀ (c : Conn) m, (send c m).pc = c.pc ∧ (send c m).sessions = c.sessions := by
    intro c m; obtain ⟨o, eo⟩ := send_frame c m; rw [eo]; exact ⟨rfl, rfl⟩
  have hcl : ∀ c : Conn, (closeConn c).pc = c.pc ∧ (closeConn c).sessions = c.sessions := by
    intro c; obtain ⟨heap, e, k⟩ := closeConn_like c; rw [e]; exact ⟨rfl, rfl⟩
  have hcc : ∀ (c : Conn) i, (closeCancel c i).pc = c.pc ∧ (closeCancel c i).sessions = c.sessions := by
    intro c i; unfold closeCancel; repeat' split
    all_goals exact ⟨rfl, rfl⟩
  unfold step at e
  rw [if_neg (by simp [hinv.nocrash])] at e
  cases a with
  | read f => exact absurd rfl (h1 f)
  | tick => exact absurd rfl h2
  | giveUp => exact absurd rfl h3
  | exit => exact absurd rfl h4
  | recv j => obtain ⟨t, t', h1, h2, h3, rfl⟩ := onSess_cases e; exact ⟨rfl, rfl⟩
  | iterCancel j => obtain ⟨t, t', h1, h2, h3, rfl⟩ := onSess_cases e; exact ⟨rfl, rfl⟩
  | iterTick j => obtain ⟨t, t', h1, h2, h3, rfl⟩ := onSess_cases e; exact ⟨rfl, rfl⟩
  | _ =>
    dsimp only at e
    repeat' split at e
    all_goals try (simp at e; done)
    all_goals
      simp only [Option.some.injEq] at e
      subst e
    all_goals first
      | exact ⟨rfl, rfl⟩
      | exact hcl _
      | exact hsend _ _
      | exact ⟨(hsend _ _).1.trans (hcc _ _).1, (hsend _ _).2.trans (hcc _ _).2⟩

/-! ### Invariants of sessions that hold always -/

theorem userData_append (ps : List Pl) (p : Pl) :
    userData (ps ++ [p]) = userData ps ++ (if p.last = true ∧ p.data = [] then [] else [p.data]) := by
  unfold userData
  rw [List.filter_append, List.map_append]
  congr 1
  by_cases h1 : p.last = true <;> by_cases h2 : p.data = [] <;> simp [h1, h2]

theorem iterRecv_yielded {s s' : Sess} (h : s.yielded = userData s.taken) (e : iterRecv s = some s') : s'.yielded = userData s'.taken := by
  unfold iterRecv at e
  split at e <;> try (simp at e; done)
  split at e
  · simp only [Option.some.injEq] at e
    subst e
    rename_i p q hq
    unfold yield
    dsimp only
    split
    · rename_i hc; rw [userData_append, if_pos hc, h]; simp
    · rename_i hc
      split <;> rw [userData_append, if_neg hc, ← h]
  · split at e <;> simp only [Option.some.injEq, reduceCtorEq] at e
    subst e
    exact h

theorem iterTick_rest {s s' : Sess} (e : iterTick s = some s') : s'.yielded = s.yielded ∧ s'.taken = s.taken ∧ s'.queue = s.queue := by
  unfold iterTick at e
  repeat' split at e
  all_goals try (simp at e; done)
  all_goals
    simp only [Option.some.injEq] at e
    subst e
    exact ⟨rfl, rfl, rfl⟩

theorem seff_yielded {c c' : Conn} {a : Act} {i : Nat} {s s' : Sess} (h : s.yielded = userData s.taken) (k : SEff c a c' i s s') :
    s'.yielded = userData s'.taken := by
  cases k with
  | recv _ _ e => exact iterRecv_yielded h e
  | itick _ _ e => obtain ⟨h1, h2, _⟩ := iterTick_rest e; rw [h1, h2, h]
  | _ => exact h

/-- The user of a reader has seen what the reader has taken. -/
theorem reach_yielded {as : List Act} {b : Bool} {c : Conn} (h : run as { usePacking := b } = some c) :
    ∀ (i : Nat) s, c.heap[i]? = some s → s.yielded = userData s.taken := by
  refine reach_induction (fun _ c => ∀ (i : Nat) s, c.heap[i]? = some s → s.yielded = userData s.taken) (by intro i s hs; simp at hs) ?_ h
  intro as c a c' hinv hp e i s' hs'
  rcases sess_back hinv e hs' with ⟨s, h1, k⟩ | ⟨_, rfl, _⟩
  · exact seff_yielded (hp i s h1) k
  · rfl

/-- A session that was not acknowledged is untouched. -/
structure Fresh (c : Conn) (i : Nat) (s : Sess) : Prop where
  queue : s.queue = []
  taken : s.taken = []
  info : s.info = none
  it : s.it = .reading
  opener : c.openers[i]? ≠ some .accepted
  cancel : c.closed = false → s.cancelClosed = false

def FInv (c : Conn) : Prop :=
  (∀ (i : Nat) s, c.heap[i]? = some s → s.ready = false → Fresh c i s) ∧
  ∀ i p, c.pc = .sending i p → ∃ s, c.heap[i]? = some s ∧ s.ready = true

theorem reach_fresh {as : List Act} {b : Bool} {c : Conn} (h : run as { usePacking := b } = some c) : FInv c := by
  refine reach_induction (fun _ c => FInv c) ⟨by intro i s hs; simp at hs, by intro i p hp; simp at hp⟩ ?_ h
  intro as c a c' hinv hp e
  have hready : ∀ (i : Nat) s s', SEff c a c' i s s' → s.ready = true → s'.ready = true := by
    intro i s s' k hr
    cases k with
    | recv _ _ e => exact (iterRecv_like e).2.2.1.trans hr
    | itick _ _ e => exact (iterTick_like e).2.2.1.trans hr
    | _ => first | exact hr | rfl
  refine ⟨?_, ?_⟩
  · intro i s' hs' hr'
    rcases sess_back hinv e hs' with ⟨s, h1, k⟩ | ⟨hi, rfl, hcl, ho⟩
    · have hr : s.ready = false := by
        cases hr : s.ready with
        | false => rfl
        | true => rw [hready i s s' k hr] at hr'; cases hr'
      have f := hp.1 i s h1 hr
      have hop : c'.openers[i]? ≠ some .accepted := by
        intro h
        rcases accepted_back hinv e h with h | ⟨t, h2, h3⟩
        · exact f.opener h
        · rw [h1] at h2; cases h2; rw [hr] at h3; cases h3
      have hc : c'.closed = false → s.cancelClosed = false := fun h => f.cancel (closed_mono hinv e h)
      have hpcok := hinv.pcok
      unfold PcOk at hpcok
      cases k with
      | keep x hx =>
        refine ⟨f.queue, f.taken, f.info, f.it, hop, ?_⟩
        intro hcl
        rcases hx with hx | hx | hx
        · exact hx.trans (hc hcl)
        · rw [hcl] at hx; cases hx
        · exfalso
          subst hx
          unfold step at e
          rw [if_neg (by simp [hinv.nocrash])] at e
          dsimp only at e
          split at e <;> try (simp at e; done)
          rename_i ho _
          exact f.opener ho
      | accept => cases hr'
      | reject => cases hr'
      | info _ hpc =>
        rw [hpc] at hpcok
        obtain ⟨t, g1, _, g3, _⟩ := hpcok
        rw [h1] at g1
        cases g1
        rw [hr] at g3
        cases g3
      | shut _ hpc =>
        rw [hpc] at hpcok
        obtain ⟨t, g1, _, g3, _⟩ := hpcok
        rw [h1] at g1
        cases g1
        rw [hr] at g3
        cases g3
      | exit _ hx => exact ⟨f.queue, f.taken, f.info, f.it, hop, hc⟩
      | push _ hpc _ =>
        obtain ⟨t, g1, g2⟩ := hp.2 i _ hpc
        rw [h1] at g1
        cases g1
        rw [hr] at g2
        cases g2
      | recv _ ho => exact absurd ho f.opener
      | cancel _ ho => exact absurd ho f.opener
      | itick _ ho => exact absurd ho f.opener
    · exact ⟨rfl, rfl, rfl, rfl, by rw [ho]; simp, fun _ => rfl⟩
  · intro i p hpc'
    have old : c.pc = .sending i p → ∃ s, c'.heap[i]? = some s ∧ s.ready = true := by
      intro h
      obtain ⟨s, h1, h2⟩ := hp.2 i p h
      obtain ⟨s', g1, g2⟩ := sess_step hinv e h1
      exact ⟨s', g1, hready i s s' g2 h2⟩
    by_cases hr : ∃ f, a = .read f
    · obtain ⟨f, rfl⟩ := hr
      have e0 := e
      unfold step at e0
      rw [if_neg (by simp [hinv.nocrash])] at e0
      dsimp only at e0
      split at e0 <;> simp only [Option.some.injEq, reduceCtorEq] at e0
      rename_i hidle
      have key : c'.pc = .idle ∨ ∃ j k, c'.pc = .closing j k ∨ (∃ sid d, lookup c.sessions sid = some j ∧ c'.pc = .sending j d) := by
        subst e0
        cases f with
        | ack o sid ok pk =>
          left
          unfold read handleAck
          dsimp only
          have hcd : ∀ c : Conn, (checkDrained c).pc = c.pc := by
            intro c; rcases checkDrained_frame c with e | ⟨e, _⟩ <;> rw [e]
          repeat' split
          all_goals first | exact hidle | simp [hcd, hidle]
        | close sid code =>
          unfold read
          dsimp only
          split
          · exact .inl hidle
          · exact .inr ⟨_, _, .inl rfl⟩
        | payload sid p d =>
          unfold read
          dsimp only
          split
          · exact .inl hidle
          · rename_i j hl
            split
            · exact .inl hidle
            · exact .inr ⟨j, 0, .inr ⟨sid, p, hl, rfl⟩⟩
        | goAway =>
          left
          obtain ⟨heap, e, _⟩ := closeConn_like c
          show (closeConn c).pc = _
          rw [e]
          exact hidle
        | other => exact .inl hidle
      rcases key with k | ⟨j, k, k1 | ⟨sid, d, k1, k2⟩⟩
      · rw [k] at hpc'; cases hpc'
      · rw [k1] at hpc'; cases hpc'
      · rw [k2] at hpc'
        cases hpc'
        obtain ⟨s, h1, _, h3, _⟩ := hinv.sess _ (lookup_mem k1)
        obtain ⟨s', g1, g2⟩ := sess_step hinv e h1
        exact ⟨s', g1, hready _ s s' g2 h3⟩
    by_cases ht : a = .tick
    · exfalso
      subst ht
      unfold step at e
      rw [if_neg (by simp [hinv.nocrash])] at e
      have hnc := (hinv.step (a := .tick) (by unfold step; rw [if_neg (by simp [hinv.nocrash])]; exact e)).nocrash
      dsimp only [tick] at e
      repeat' split at e
      all_goals try (simp at e; done)
      all_goals
        simp only [Option.some.injEq] at e
        subst e
      all_goals first
        | (cases hpc'; done)
        | (cases hnc; done)
    by_cases hg : a = .giveUp
    · exfalso
      subst hg
      unfold step at e
      rw [if_neg (by simp [hinv.nocrash])] at e
      dsimp only at e
      repeat' split at e
      all_goals try (simp at e; done)
      simp only [Option.some.injEq] at e
      subst e
      cases hpc'
    by_cases hx : a = .exit
    · exfalso
      subst hx
      unfold step at e
      rw [if_neg (by simp [hinv.nocrash])] at e
      dsimp only at e
      split at e <;> simp only [Option.some.injEq, reduceCtorEq] at e
      subst e
      have hcr : ∀ (c : Conn) i, (closeRecv c i).pc = c.pc := by
        intro c i; unfold closeRecv; repeat' split
        all_goals rfl
      have hex : ∀ (l : List (UInt32 × Nat)) (c : Conn), (l.foldl (fun c e => closeRecv c e.2) c).pc = c.pc := by
        intro l
        induction l with
        | nil => intro c; rfl
        | cons e l ih => intro c; rw [List.foldl_cons, ih, hcr]
      unfold exit at hpc'
      rw [hex] at hpc'
      cases hpc'
    · exact old ((other_rest hinv e (fun f h => hr ⟨f, h⟩) ht hg hx).1 ▸ hpc')

/-! ### A session from its acknowledgement to its end -/

theorem lookup_remove_ne {m : List (UInt32 × Nat)} {a b : UInt32} (h : a ≠ b) : lookup (remove m a) b = lookup m b := by
  unfold lookup remove
  induction m with
  | nil => rfl
  | cons e m ih =>
    by_cases h1 : e.1 = a
    · have hb : ¬ e.1 = b := fun hb => h (h1.symm.trans hb)
      rw [List.filter_cons_of_neg (by simp [h1]), List.find?_cons_of_neg (by simp [hb])]
      exact ih
    · rw [List.filter_cons_of_pos (by simp [h1])]
      by_cases hb : e.1 = b
      · rw [List.find?_cons_of_pos (by simp [hb]), List.find?_cons_of_pos (by simp [hb])]
      · rw [List.find?_cons_of_neg (by simp [hb]), List.find?_cons_of_neg (by simp [hb])]
        exact ih

theorem lookup_insert_ne {m : List (UInt32 × Nat)} {a b : UInt32} {j : Nat} (h : a ≠ b) :
    lookup (SrvConn.insert m a j) b = lookup m b := by
  rw [← lookup_remove_ne (m := m) h]
  unfold SrvConn.insert lookup
  rw [List.find?_append]
  cases hf : List.find? (fun e => decide (e.1 = b)) (remove m a) with
  | some x => simp
  | none => simp [h]

theorem lookup_insert_self {m : List (UInt32 × Nat)} {a : UInt32} {j : Nat} : lookup (SrvConn.insert m a j) a = some j := by
  unfold SrvConn.insert lookup
  rw [List.find?_append]
  have : List.find? (fun e => decide (e.1 = a)) (remove m a) = none := by
    rw [List.find?_eq_none]
    intro e he
    simpa using (mem_remove.1 he).2
  rw [this]
  simp

/-- The payload in the hands of the read loop. -/
def inflight (c : Conn) (i : Nat) : List Pl :=
  match c.pc with
  | .sending j p => if j = i then [p] else []
  | _ => []

/-- The session is in the map of the connection. -/
structure OpenPh (xs : List Act) (sid : UInt32) (i : Nat) (c : Conn) (s : Sess) : Prop where
  heap : c.heap[i]? = some s
  look : lookup c.sessions sid = some i
  ready : s.ready = true
  live : s.recvClosed = false
  alive : c.pc ≠ .exited
  info : s.info = none
  cancel : s.cancelClosed = false
  data : s.taken ++ (s.queue ++ inflight c i) = since sid xs
  chk : s.it ≠ .checking (some false)
  fin : ∀ e, s.it ≠ .done (some false) e

/-- The Close frame for the session was read. -/
structure ClosedPh (ps : List Pl) (code : Nat) (i : Nat) (c : Conn) (s : Sess) : Prop where
  heap : c.heap[i]? = some s
  ready : s.ready = true
  out : ∀ e ∈ c.sessions, e.2 ≠ i
  data : s.taken ++ s.queue = ps
  pc1 : ∀ p, c.pc ≠ .sending i p
  pc2 : ∀ k, c.pc = .closing i k → k = code ∧ s.recvClosed = false ∧ s.info = none
  pc3 : (∀ k, c.pc ≠ .closing i k) → s.info = some code ∨ ∃ w e, s.it = .done w e
  pc4 : c.pc = .closed i → s.recvClosed = false
  chk : s.it = .checking (some false) → s.recvClosed = true ∧ s.queue = []
  fin : ∀ e, s.it = .done (some false) e → s.queue = [] ∧ e = errOf code

theorem since_append (sid : UInt32) (xs : List Act) (a : Act) : since sid (xs ++ [a]) = since sid xs ++ since sid [a] := by
  unfold since
  rw [List.filterMap_append]

theorem iterRecv_data {s s' : Sess} (e : iterRecv s = some s') :
    s'.taken ++ s'.queue = s.taken ++ s.queue ∧ s'.info = s.info ∧ s'.cancelClosed = s.cancelClosed ∧
      (s.it = .reading ∨ s.it = .draining) ∧ (∀ w e, s'.it ≠ .done w e) ∧
      (s'.it = .checking (some false) → s.recvClosed = true ∧ s'.recvClosed = true ∧ s'.queue = []) := by
  unfold iterRecv at e
  split at e <;> try (simp at e; done)
  rename_i hr
  split at e
  · simp only [Option.some.injEq] at e
    subst e
    rename_i p q hq
    have h1 : ∀ w e, s.it ≠ .done w e := by rcases hr with h | h <;> simp [h]
    have h2 : s.it ≠ .checking (some false) := by rcases hr with h | h <;> simp [h]
    unfold yield
    dsimp only
    repeat' split
    · exact ⟨by simp [hq], rfl, rfl, hr, by simp, by simp⟩
    · exact ⟨by simp [hq], rfl, rfl, hr, by simp, by simp⟩
    · exact ⟨by simp [hq], rfl, rfl, hr, h1, fun h => absurd h h2⟩
  · split at e <;> simp only [Option.some.injEq, reduceCtorEq] at e
    rename_i hq hc
    subst e
    exact ⟨rfl, rfl, rfl, hr, by simp, fun _ => ⟨hc, hc, hq⟩⟩

/-- One step of an open session. -/
theorem OpenPh.step {xs : List Act} {sid : UInt32} {i : Nat} {c c' : Conn} {s : Sess} {a : Act} (hinv : Inv c) (h : OpenPh xs sid i c s)
    (e : step c a = some c') (hx : a ≠ .exit) (hcs : a ≠ .closeSess i) (hack : ∀ o pk, a ≠ .read (.ack o sid true pk))
    (hcl : c'.closed = false) :
    (∃ s', OpenPh (xs ++ [a]) sid i c' s') ∨ (∃ code s', a = .read (.close sid code) ∧ ClosedPh (since sid xs) code i c' s') := by
  have hmem := lookup_mem h.look
  obtain ⟨s0, g0, gsid, _, _⟩ := hinv.sess _ hmem
  rw [h.heap] at g0
  cases g0
  have hnp : ∀ o, lookup c.pending o ≠ some i := by
    intro o ho
    obtain ⟨t, k1, _, k3, _⟩ := hinv.pend _ (lookup_mem ho)
    rw [h.heap] at k1
    cases k1
    rw [h.ready] at k3
    cases k3
  have hpcok := hinv.pcok
  unfold PcOk at hpcok
  have hn1 : ∀ k, c.pc ≠ .closing i k := by
    intro k hk
    rw [hk] at hpcok
    obtain ⟨_, _, _, _, k4⟩ := hpcok
    exact k4 _ hmem rfl
  have hn2 : c.pc ≠ .closed i := by
    intro hk
    rw [hk] at hpcok
    obtain ⟨_, _, _, _, k4⟩ := hpcok
    exact k4 _ hmem rfl
  have hinv' := hinv.step e
  obtain ⟨s', hs', k⟩ := sess_step hinv e h.heap
  by_cases hr : ∃ f, a = .read f
  · obtain ⟨f, rfl⟩ := hr
    have hss : s' = s := by
      cases k with
      | keep x hx =>
        rcases hx with rfl | hx | hx
        · rfl
        · rw [hcl] at hx; cases hx
        · cases hx
      | accept _ ho => exact absurd ho (hnp _)
      | reject _ ho => exact absurd ho (hnp _)
      | info ha | shut ha | exit ha | push ha | recv ha | cancel ha | itick ha => cases ha
    subst hss
    unfold CliConn.step at e
    rw [if_neg (by simp [hinv.nocrash])] at e
    dsimp only at e
    split at e <;> simp only [Option.some.injEq, reduceCtorEq] at e
    rename_i hidle
    have hdata : s'.taken ++ s'.queue = since sid xs := by
      have := h.data
      simpa [inflight, hidle] using this
    have mk : c'.pc = .idle ∨ (∃ j k, c'.pc = .closing j k) → lookup c'.sessions sid = some i → since sid [Act.read f] = [] →
        OpenPh (xs ++ [Act.read f]) sid i c' s' := by
      intro hpc hl hsn
      refine ⟨hs', hl, h.ready, h.live, ?_, h.info, h.cancel, ?_, h.chk, h.fin⟩
      · rcases hpc with hpc | ⟨j, k, hpc⟩ <;> rw [hpc] <;> simp
      · rw [since_append, hsn, List.append_nil, ← hdata]
        rcases hpc with hpc | ⟨j, k, hpc⟩ <;> simp [inflight, hpc]
    cases f with
    | ack o sid' ok pk =>
      left
      refine ⟨s', mk (.inl ?_) ?_ rfl⟩
      · subst e
        unfold read handleAck
        dsimp only
        have hcd : ∀ c : Conn, (checkDrained c).pc = c.pc := by
          intro c; rcases checkDrained_frame c with e | ⟨e, _⟩ <;> rw [e]
        repeat' split
        all_goals first | exact hidle | simp [hcd, hidle]
      · have hne : ok = true → sid' ≠ sid := by
          rintro rfl rfl
          exact hack o pk rfl
        subst e
        unfold read handleAck
        dsimp only
        have hcd := fun c => (checkDrained_rest c).2.1
        split
        · exact h.look
        split
        · exact h.look
        split
        · exact h.look
        split
        · simp only [hcd]; exact h.look
        · rename_i hok
          have hok : ok = true := by simpa using hok
          exact (lookup_insert_ne (hne hok)).trans h.look
    | close sid' code =>
      by_cases hsid : sid' = sid
      · right
        subst hsid
        have he : c' = { checkDrained { c with sessions := remove c.sessions sid' } with pc := .closing i code } := by
          rw [← e]
          show (match lookup c.sessions sid' with | none => _ | some i => _) = _
          rw [h.look]
        have hsess : c'.sessions = remove c.sessions sid' := by
          rw [he]; exact (checkDrained_rest _).2.1
        have hpc : c'.pc = .closing i code := by rw [he]
        refine ⟨code, s', rfl, hs', h.ready, ?_, hdata, ?_, ?_, ?_, ?_, fun hh => absurd hh h.chk, fun e hh => absurd hh (h.fin e)⟩
        · rw [hsess]
          intro x hx hxi
          have hm := mem_remove.1 hx
          obtain ⟨t, k1, k2, _⟩ := hinv.sess x hm.1
          rw [hxi, h.heap] at k1
          cases k1
          exact hm.2 (k2.symm.trans gsid)
        · rw [hpc]; intro p hh; cases hh
        · rw [hpc]; intro k hh; cases hh; exact ⟨rfl, h.live, h.info⟩
        · intro hh; exact absurd hpc (hh code)
        · rw [hpc]; intro hh; cases hh
      · left
        refine ⟨s', mk ?_ ?_ rfl⟩
        · subst e
          unfold read
          dsimp only
          split
          · exact .inl hidle
          · exact .inr ⟨_, _, rfl⟩
        · subst e
          unfold read
          dsimp only
          split
          · exact h.look
          · dsimp only
            rw [(checkDrained_rest _).2.1]
            exact (lookup_remove_ne hsid).trans h.look
    | payload sid' p d =>
      left
      by_cases hsid : sid' = sid
      · subst hsid
        have he : c' = if d then c else { c with pc := .sending i p } := by
          rw [← e]
          show (match lookup c.sessions sid' with | none => _ | some i => _) = _
          rw [h.look]
        cases d with
        | true =>
          rw [if_pos rfl] at he
          rw [he] at hs' ⊢ mk
          exact ⟨s', mk (.inl hidle) h.look rfl⟩
        | false =>
          rw [if_neg (by simp)] at he
          have hpc : c'.pc = .sending i p := by rw [he]
          refine ⟨s', hs', by rw [he]; exact h.look, h.ready, h.live, by rw [hpc]; simp, h.info, h.cancel, ?_, h.chk, h.fin⟩
          rw [since_append, ← hdata]
          simp [inflight, hpc, since]
      · have hsn : since sid [Act.read (.payload sid' p d)] = [] := by
          cases d <;> simp [since, hsid]
        cases hl : lookup c.sessions sid' with
        | none =>
          have he : c' = c := by
            rw [← e]
            show (match lookup c.sessions sid' with | none => _ | some i => _) = _
            rw [hl]
          rw [he] at hs' ⊢ mk
          exact ⟨s', mk (.inl hidle) h.look hsn⟩
        | some j =>
          have he : c' = if d then c else { c with pc := .sending j p } := by
            rw [← e]
            show (match lookup c.sessions sid' with | none => _ | some i => _) = _
            rw [hl]
          have hj : j ≠ i := by
            rintro rfl
            obtain ⟨t, k1, k2, _⟩ := hinv.sess _ (lookup_mem hl)
            dsimp only at k1
            rw [h.heap] at k1
            cases k1
            exact hsid (k2.symm.trans gsid)
          cases d with
          | true =>
            rw [if_pos rfl] at he
            rw [he] at hs' ⊢ mk
            exact ⟨s', mk (.inl hidle) h.look hsn⟩
          | false =>
            rw [if_neg (by simp)] at he
            have hpc : c'.pc = .sending j p := by rw [he]
            refine ⟨s', hs', by rw [he]; exact h.look, h.ready, h.live, by rw [hpc]; simp, h.info, h.cancel, ?_, h.chk, h.fin⟩
            rw [since_append, hsn, ← hdata]
            simp [inflight, hpc, hj]
    | goAway =>
      exfalso
      obtain ⟨heap, e1, _⟩ := closeConn_like c
      have : c'.closed = true := by rw [← e]; show (closeConn c).closed = true; rw [e1]
      rw [hcl] at this
      cases this
    | other =>
      left
      have he : c' = c := e.symm
      rw [he] at hs' ⊢ mk
      exact ⟨s', mk (.inl hidle) h.look rfl⟩
  left
  have hsn : since sid [a] = [] := by
    cases a with
    | read f => exact absurd ⟨f, rfl⟩ hr
    | _ => rfl
  by_cases ht : a = .tick
  · subst ht
    have hnc := hinv'.nocrash
    unfold CliConn.step at e
    rw [if_neg (by simp [hinv.nocrash])] at e
    dsimp only [tick] at e
    split at e
    · simp at e
    · simp at e
    · rename_i j code hp
      have hj : j ≠ i := fun hj => hn1 code (hj ▸ hp)
      split at e <;> simp only [Option.some.injEq, reduceCtorEq] at e
      subst e
      refine ⟨s, (List.getElem?_set_ne hj).trans h.heap, h.look, h.ready, h.live, by simp, h.info, h.cancel, ?_, h.chk, h.fin⟩
      rw [since_append, hsn, ← h.data]
      simp [inflight, hp]
    · rename_i j hp
      have hj : j ≠ i := fun hj => hn2 (hj ▸ hp)
      simp only [Option.some.injEq] at e
      rw [hp] at hpcok
      obtain ⟨t, h1, h2, _⟩ := hpcok
      have he : closeRecv c j = { c with heap := c.heap.set j { t with recvClosed := true } } := by
        unfold closeRecv
        rw [h1]
        dsimp only
        rw [if_neg (by simp [h2])]
      rw [he] at e
      subst e
      refine ⟨s, (List.getElem?_set_ne hj).trans h.heap, h.look, h.ready, h.live, by simp, h.info, h.cancel, ?_, h.chk, h.fin⟩
      rw [since_append, hsn, ← h.data]
      simp [inflight, hp]
    · rename_i j p hp
      split at e
      · simp at e
      rename_i t ht
      split at e
      · simp only [Option.some.injEq] at e
        subst e
        cases hnc
      split at e <;> simp only [Option.some.injEq, reduceCtorEq] at e
      subst e
      by_cases hj : j = i
      · subst hj
        rw [h.heap] at ht
        cases ht
        refine ⟨{ s with queue := s.queue ++ [p] }, List.getElem?_set_self (List.getElem?_eq_some_iff.1 h.heap).1, h.look, h.ready, h.live,
          by simp, h.info, h.cancel, ?_, h.chk, h.fin⟩
        rw [since_append, hsn, ← h.data]
        simp [inflight, hp]
      · refine ⟨s, (List.getElem?_set_ne hj).trans h.heap, h.look, h.ready, h.live, by simp, h.info, h.cancel, ?_, h.chk, h.fin⟩
        rw [since_append, hsn, ← h.data]
        simp [inflight, hp, hj]
  by_cases hg : a = .giveUp
  · subst hg
    unfold CliConn.step at e
    rw [if_neg (by simp [hinv.nocrash])] at e
    dsimp only at e
    split at e <;> try (simp at e; done)
    rename_i j p hp
    split at e <;> try (simp at e; done)
    rename_i t ht
    split at e <;> simp only [Option.some.injEq, reduceCtorEq] at e
    rename_i hc
    subst e
    have hj : j ≠ i := by
      rintro rfl
      rw [h.heap] at ht
      cases ht
      rw [h.cancel] at hc
      cases hc
    refine ⟨s, h.heap, h.look, h.ready, h.live, by simp, h.info, h.cancel, ?_, h.chk, h.fin⟩
    rw [since_append, hsn, ← h.data]
    simp [inflight, hp, hj]
  obtain ⟨q1, q2⟩ := other_rest hinv e (fun f hf => hr ⟨f, hf⟩) ht hg hx
  have hfl : inflight c' i = inflight c i := by unfold inflight; rw [q1]
  have mk : ∀ s', c'.heap[i]? = some s' → s'.ready = true → s'.recvClosed = false → s'.info = none → s'.cancelClosed = false →
      s'.taken ++ s'.queue = s.taken ++ s.queue → s'.it ≠ .checking (some false) → (∀ e, s'.it ≠ .done (some false) e) →
      ∃ s', OpenPh (xs ++ [a]) sid i c' s' := by
    intro s' hs' hready hlive hinfo hcancel hd hchk hfin
    refine ⟨s', hs', by rw [q2]; exact h.look, hready, hlive, by rw [q1]; exact h.alive, hinfo, hcancel, ?_, hchk, hfin⟩
    rw [since_append, hsn, ← h.data, hfl, ← List.append_assoc, hd]
    simp
  cases k with
  | keep x hx =>
    have hx : x = false := by
      rcases hx with hx | hx | hx
      · exact hx.trans h.cancel
      · rw [hcl] at hx; cases hx
      · exact absurd hx hcs
    exact mk _ hs' h.ready h.live h.info hx rfl h.chk h.fin
  | accept ha | reject ha => exact absurd ⟨_, ha⟩ hr
  | info ha | shut ha | push ha => exact absurd ha ht
  | exit ha => exact absurd ha hx
  | recv _ _ e1 =>
    obtain ⟨d1, d2, d3, d4, d5, d6⟩ := iterRecv_data e1
    have hl := iterRecv_like e1
    refine mk _ hs' (hl.2.2.1.trans h.ready) (hl.2.2.2.trans h.live) (d2.trans h.info) (d3.trans h.cancel) d1 ?_ (fun e => d5 _ e)
    intro hh
    have := (d6 hh).1
    rw [h.live] at this
    cases this
  | cancel => exact mk _ hs' h.ready h.live h.info h.cancel rfl (by simp) (by simp)
  | itick _ _ e1 =>
    have hl := iterTick_like e1
    obtain ⟨d1, d2, d3⟩ := iterTick_rest e1
    unfold iterTick at e1
    split at e1
    · split at e1 <;> simp only [Option.some.injEq, reduceCtorEq] at e1
      subst e1
      exact mk _ hs' h.ready h.live h.info h.cancel rfl (by simp) (by simp)
    · rename_i why hw
      rw [h.info] at e1
      simp only [Option.some.injEq] at e1
      subst e1
      refine mk _ hs' h.ready h.live (by first | rfl | exact h.info) h.cancel rfl (by simp) ?_
      intro e hh
      simp only [IPc.done.injEq] at hh
      exact h.chk (by rw [hw, hh.1])
    · simp at e1

/-- A step after the Close frame: nothing can spoil the session any more. -/
theorem ClosedPh.step {ps : List Pl} {code : Nat} {i : Nat} {c c' : Conn} {s : Sess} {a : Act} (hinv : Inv c)
    (h : ClosedPh ps code i c s) (e : step c a = some c') : ∃ s', ClosedPh ps code i c' s' := by
  have hnp : ∀ o, lookup c.pending o ≠ some i := by
    intro o ho
    obtain ⟨t, k1, _, k3, _⟩ := hinv.pend _ (lookup_mem ho)
    rw [h.heap] at k1
    cases k1
    rw [h.ready] at k3
    cases k3
  have hns : ∀ o, lookup c.sessions o ≠ some i := fun o ho => h.out _ (lookup_mem ho) rfl
  have hinv' := hinv.step e
  obtain ⟨s', hs', keff⟩ := sess_step hinv e h.heap
  -- what the place of the read loop may become
  have hplace : (∀ x ∈ c'.sessions, x.2 ≠ i) ∧ (∀ p, c'.pc ≠ .sending i p) ∧
      ((a = .tick ∧ ((∃ k, c.pc = .closing i k ∧ c'.pc = .closed i) ∨ (c.pc = .closed i ∧ c'.pc = .idle))) ∨
       (c'.pc = c.pc ∧ ¬ (a = .tick ∧ ((∃ k, c.pc = .closing i k) ∨ c.pc = .closed i))) ∨
       ((∀ k, c.pc ≠ .closing i k) ∧ c.pc ≠ .closed i ∧ (∀ k, c'.pc ≠ .closing i k) ∧ c'.pc ≠ .closed i)) := by
    by_cases hr : ∃ f, a = .read f
    · obtain ⟨f, rfl⟩ := hr
      unfold CliConn.step at e
      rw [if_neg (by simp [hinv.nocrash])] at e
      dsimp only at e
      split at e <;> simp only [Option.some.injEq, reduceCtorEq] at e
      rename_i hidle
      have hsame : c' = c → (∀ x ∈ c'.sessions, x.2 ≠ i) ∧ (∀ p, c'.pc ≠ .sending i p) ∧
          ((Act.read f = .tick ∧ ((∃ k, c.pc = .closing i k ∧ c'.pc = .closed i) ∨ (c.pc = .closed i ∧ c'.pc = .idle))) ∨
           (c'.pc = c.pc ∧ ¬ (Act.read f = .tick ∧ ((∃ k, c.pc = .closing i k) ∨ c.pc = .closed i))) ∨
           ((∀ k, c.pc ≠ .closing i k) ∧ c.pc ≠ .closed i ∧ (∀ k, c'.pc ≠ .closing i k) ∧ c'.pc ≠ .closed i)) :=
        fun he => ⟨he ▸ h.out, he ▸ h.pc1, .inr (.inl ⟨by rw [he], by simp⟩)⟩
      cases f with
      | ack o sid' ok pk =>
        have hpc : c'.pc = c.pc := by
          subst e
          unfold read handleAck
          dsimp only
          have hcd : ∀ c : Conn, (checkDrained c).pc = c.pc := by
            intro c; rcases checkDrained_frame c with e | ⟨e, _⟩ <;> rw [e]
          repeat' split
          all_goals first | rfl | simp [hcd]
        refine ⟨?_, by rw [hpc]; exact h.pc1, .inr (.inl ⟨hpc, by simp⟩)⟩
        subst e
        unfold read handleAck
        dsimp only
        have hcd := fun c => (checkDrained_rest c).2.1
        split
        · exact h.out
        rename_i j hj
        split
        · exact h.out
        split
        · exact h.out
        split
        · simp only [hcd]; exact h.out
        · intro x hx
          rcases mem_insert.1 hx with hx | hx
          · exact h.out x hx.1
          · rw [hx]
            rintro rfl
            exact hnp o hj
      | close sid' k =>
        cases hl : lookup c.sessions sid' with
        | none => exact hsame (by rw [← e]; show (match lookup c.sessions sid' with | none => _ | some i => _) = _; rw [hl])
        | some j =>
          have he : c' = { checkDrained { c with sessions := remove c.sessions sid' } with pc := .closing j k } := by
            rw [← e]
            show (match lookup c.sessions sid' with | none => _ | some i => _) = _
            rw [hl]
          have hj : j ≠ i := fun hj => hns sid' (hj ▸ hl)
          have hsess : c'.sessions = remove c.sessions sid' := by rw [he]; exact (checkDrained_rest _).2.1
          have hpc : c'.pc = .closing j k := by rw [he]
          rw [hsess, hpc]
          refine ⟨fun x hx => h.out x (mem_remove.1 hx).1, by simp, .inr (.inr ?_)⟩
          rw [hidle]
          refine ⟨by simp, by simp, ?_, by simp⟩
          intro k' hk'
          cases hk'
          exact hj rfl
      | payload sid' p d =>
        cases hl : lookup c.sessions sid' with
        | none => exact hsame (by rw [← e]; show (match lookup c.sessions sid' with | none => _ | some i => _) = _; rw [hl])
        | some j =>
          have he : c' = if d then c else { c with pc := .sending j p } := by
            rw [← e]
            show (match lookup c.sessions sid' with | none => _ | some i => _) = _
            rw [hl]
          have hj : j ≠ i := fun hj => hns sid' (hj ▸ hl)
          cases d with
          | true => exact hsame (he.trans (if_pos rfl))
          | false =>
            rw [if_neg (by simp)] at he
            have hpc : c'.pc = .sending j p := by rw [he]
            have hsess : c'.sessions = c.sessions := by rw [he]
            rw [hsess, hpc]
            refine ⟨h.out, ?_, .inr (.inr ?_)⟩
            · intro p' hp'
              cases hp'
              exact hj rfl
            · rw [hidle]; simp
      | goAway =>
        obtain ⟨heap, e1, _⟩ := closeConn_like c
        have he : c' = { c with closed := true, heap := heap } := by rw [← e]; exact e1
        have hpc : c'.pc = c.pc := by rw [he]
        have hsess : c'.sessions = c.sessions := by rw [he]
        rw [hsess, hpc]
        exact ⟨h.out, h.pc1, .inr (.inl ⟨rfl, by simp⟩)⟩
      | other => exact hsame e.symm
    by_cases ht : a = .tick
    · subst ht
      have hnc := hinv'.nocrash
      unfold CliConn.step at e
      rw [if_neg (by simp [hinv.nocrash])] at e
      dsimp only [tick] at e
      split at e
      · simp at e
      · simp at e
      · rename_i j k hp
        split at e <;> simp only [Option.some.injEq, reduceCtorEq] at e
        subst e
        refine ⟨h.out, by simp, ?_⟩
        by_cases hj : j = i
        · subst hj
          exact .inl ⟨rfl, .inl ⟨_, hp, rfl⟩⟩
        · exact .inr (.inr ⟨by rw [hp]; intro k' hk'; cases hk'; exact hj rfl, by rw [hp]; simp, by simp, by simpa using hj⟩)
      · rename_i j hp
        simp only [Option.some.injEq] at e
        have hcr : (closeRecv c j).sessions = c.sessions := by
          unfold closeRecv; repeat' split
          all_goals rfl
        subst e
        refine ⟨by dsimp only; rw [hcr]; exact h.out, by simp, ?_⟩
        by_cases hj : j = i
        · subst hj
          exact .inl ⟨rfl, .inr ⟨hp, rfl⟩⟩
        · exact .inr (.inr ⟨by rw [hp]; simp, by rw [hp]; simpa using hj, by simp, by simp⟩)
      · rename_i j p hp
        repeat' split at e
        all_goals try (simp at e; done)
        · simp only [Option.some.injEq] at e
          subst e
          cases hnc
        · simp only [Option.some.injEq] at e
          subst e
          exact ⟨h.out, by simp, .inr (.inr ⟨by rw [hp]; simp, by rw [hp]; simp, by simp, by simp⟩)⟩
    by_cases hg : a = .giveUp
    · subst hg
      unfold CliConn.step at e
      rw [if_neg (by simp [hinv.nocrash])] at e
      dsimp only at e
      split at e <;> try (simp at e; done)
      rename_i j p hp
      split at e <;> try (simp at e; done)
      split at e <;> simp only [Option.some.injEq, reduceCtorEq] at e
      subst e
      exact ⟨h.out, by simp, .inr (.inr ⟨by rw [hp]; simp, by rw [hp]; simp, by simp, by simp⟩)⟩
    by_cases hx : a = .exit
    · subst hx
      unfold CliConn.step at e
      rw [if_neg (by simp [hinv.nocrash])] at e
      dsimp only at e
      split at e <;> simp only [Option.some.injEq, reduceCtorEq] at e
      rename_i hidle
      subst e
      have hcr : ∀ (c : Conn) i, (closeRecv c i).pc = c.pc ∧ (closeRecv c i).sessions = c.sessions := by
        intro c i; unfold closeRecv; repeat' split
        all_goals exact ⟨rfl, rfl⟩
      have hex : ∀ (l : List (UInt32 × Nat)) (c : Conn), (l.foldl (fun c e => closeRecv c e.2) c).pc = c.pc ∧
          (l.foldl (fun c e => closeRecv c e.2) c).sessions = c.sessions := by
        intro l
        induction l with
        | nil => intro c; exact ⟨rfl, rfl⟩
        | cons e l ih => intro c; rw [List.foldl_cons]; exact ⟨(ih _).1.trans (hcr _ _).1, (ih _).2.trans (hcr _ _).2⟩
      unfold exit
      obtain ⟨k1, k2⟩ := hex c.sessions { c with pc := .exited }
      rw [k1, k2, hidle]
      exact ⟨h.out, by simp, .inr (.inr (by simp))⟩
    · obtain ⟨q1, q2⟩ := other_rest hinv e (fun f hf => hr ⟨f, hf⟩) ht hg hx
      rw [q1, q2]
      exact ⟨h.out, h.pc1, .inr (.inl ⟨rfl, by simp [ht]⟩)⟩
  obtain ⟨p1, p2, p3⟩ := hplace
  by_cases hti : a = .tick ∧ ((∃ k, c.pc = .closing i k) ∨ c.pc = .closed i)
  · -- the read loop is at this session
    obtain ⟨rfl, hpc⟩ := hti
    rcases p3 with ⟨_, ⟨k, hp, hp'⟩ | ⟨hp, hp'⟩⟩ | ⟨_, hno⟩ | ⟨hno1, hno2, _⟩
    · -- the code goes into the channel
      obtain ⟨rfl, hrc, hinfo⟩ := h.pc2 k hp
      have he : c'.heap[i]? = some { s with info := some k } := by
        unfold CliConn.step at e
        rw [if_neg (by simp [hinv.nocrash])] at e
        dsimp only [tick] at e
        rw [hp] at e
        dsimp only at e
        rw [h.heap] at e
        dsimp only at e
        simp only [Option.some.injEq] at e
        subst e
        rw [hinfo]
        exact List.getElem?_set_self (List.getElem?_eq_some_iff.1 h.heap).1
      refine ⟨_, he, h.ready, p1, h.data, p2, by rw [hp']; simp, fun _ => .inl rfl, fun _ => hrc, h.chk, h.fin⟩
    · -- the channel is closed
      have he : c'.heap[i]? = some { s with recvClosed := true } := by
        unfold CliConn.step at e
        rw [if_neg (by simp [hinv.nocrash])] at e
        dsimp only [tick] at e
        rw [hp] at e
        dsimp only at e
        simp only [Option.some.injEq] at e
        have he : closeRecv c i = { c with heap := c.heap.set i { s with recvClosed := true } } := by
          unfold closeRecv
          rw [h.heap]
          dsimp only
          rw [if_neg (by simp [h.pc4 hp])]
        rw [he] at e
        subst e
        exact List.getElem?_set_self (List.getElem?_eq_some_iff.1 h.heap).1
      refine ⟨_, he, h.ready, p1, h.data, p2, by rw [hp']; simp, fun _ => h.pc3 (by rw [hp]; simp), by rw [hp']; simp,
        fun hh => ⟨rfl, (h.chk hh).2⟩, h.fin⟩
    · exact absurd ⟨rfl, hpc⟩ hno
    · rcases hpc with ⟨k, hk⟩ | hk
      · exact absurd hk (hno1 k)
      · exact absurd hk hno2
  · -- it is elsewhere
    have hpcs : (c'.pc = c.pc) ∨ ((∀ k, c.pc ≠ .closing i k) ∧ c.pc ≠ .closed i ∧ (∀ k, c'.pc ≠ .closing i k) ∧ c'.pc ≠ .closed i) := by
      rcases p3 with ⟨rfl, ⟨k, hp, _⟩ | ⟨hp, _⟩⟩ | ⟨hp, _⟩ | hp
      · exact absurd ⟨rfl, .inl ⟨k, hp⟩⟩ hti
      · exact absurd ⟨rfl, .inr hp⟩ hti
      · exact .inl hp
      · exact .inr hp
    have mk : ∀ s', c'.heap[i]? = some s' → s'.ready = true → s'.taken ++ s'.queue = s.taken ++ s.queue → s'.recvClosed = s.recvClosed →
        (s.info = none → s'.info = none) → (s.info = some code → s'.info = some code ∨ ∃ w e, s'.it = .done w e) →
        ((∃ w e, s.it = .done w e) → ∃ w e, s'.it = .done w e) →
        (s'.it = .checking (some false) → s'.recvClosed = true ∧ s'.queue = []) →
        (∀ e, s'.it = .done (some false) e → s'.queue = [] ∧ e = errOf code) → ∃ s', ClosedPh ps code i c' s' := by
      intro s' hs' hready hd hrc hi1 hi2 hi3 hchk hfin
      have h3 : (∀ k, c.pc ≠ .closing i k) → s'.info = some code ∨ ∃ w e, s'.it = .done w e := by
        intro hk
        rcases h.pc3 hk with h1 | h1
        · exact hi2 h1
        · exact .inr (hi3 h1)
      refine ⟨s', hs', hready, p1, hd.trans h.data, p2, ?_, ?_, ?_, hchk, hfin⟩
      · intro k hk
        rcases hpcs with hp | ⟨_, _, hp, _⟩
        · obtain ⟨g1, g2, g3⟩ := h.pc2 k (hp ▸ hk)
          exact ⟨g1, hrc.trans g2, hi1 g3⟩
        · exact absurd hk (hp k)
      · intro hk
        rcases hpcs with hp | ⟨hp, _⟩
        · exact h3 (hp ▸ hk)
        · exact h3 hp
      · intro hk
        rcases hpcs with hp | ⟨_, _, _, hp⟩
        · exact hrc.trans (h.pc4 (hp ▸ hk))
        · exact absurd hk hp
    cases keff with
    | keep x hx => exact mk _ hs' h.ready rfl rfl (fun x => x) .inl (fun x => x) h.chk h.fin
    | accept _ ho => exact absurd ho (hnp _)
    | reject _ ho => exact absurd ho (hnp _)
    | info ha hp => exact absurd ⟨ha, .inl ⟨_, hp⟩⟩ hti
    | shut ha hp => exact absurd ⟨ha, .inr hp⟩ hti
    | exit _ hx => obtain ⟨x, hx1, hx2⟩ := hx; exact absurd hx2 (h.out x hx1)
    | push _ hp => exact absurd hp (h.pc1 _)
    | recv _ _ e1 =>
      obtain ⟨d1, d2, d3, d4, d5, d6⟩ := iterRecv_data e1
      have hl := iterRecv_like e1
      refine mk _ hs' (hl.2.2.1.trans h.ready) d1 hl.2.2.2 (fun x => d2.trans x) (fun x => .inl (d2.trans x)) ?_
        (fun hh => (d6 hh).2) (fun e hh => absurd hh (d5 _ e))
      rintro ⟨w, e, hw⟩
      rcases d4 with d4 | d4 <;> rw [d4] at hw <;> cases hw
    | cancel _ _ hr => exact mk _ hs' h.ready rfl rfl (fun x => x) .inl (by rintro ⟨w, e, hw⟩; rw [hr] at hw; cases hw) (by simp) (by simp)
    | itick _ _ e1 =>
      unfold iterTick at e1
      split at e1
      · rename_i hw
        split at e1 <;> simp only [Option.some.injEq, reduceCtorEq] at e1
        subst e1
        exact mk _ hs' h.ready rfl rfl (fun x => x) .inl (by rintro ⟨w, e, hw'⟩; rw [hw] at hw'; cases hw') (by simp) (by simp)
      · rename_i why hw
        split at e1
        · rename_i hi
          simp only [Option.some.injEq] at e1
          subst e1
          refine mk _ hs' h.ready rfl rfl (fun x => x) .inl (fun _ => ⟨_, _, rfl⟩) (by simp) ?_
          intro e hh
          simp only [IPc.done.injEq] at hh
          obtain ⟨rfl, _⟩ := hh
          exfalso
          have hrc := (h.chk hw).1
          have hnc : ∀ k, c.pc ≠ .closing i k := by
            intro k hk
            have := (h.pc2 k hk).2.1
            rw [hrc] at this
            cases this
          rcases h.pc3 hnc with h1 | ⟨w, e, h1⟩
          · rw [hi] at h1; cases h1
          · rw [hw] at h1; cases h1
        · rename_i k hi
          simp only [Option.some.injEq] at e1
          subst e1
          refine mk _ hs' h.ready rfl rfl (fun _ => rfl) (fun _ => .inr ⟨_, _, rfl⟩) (fun _ => ⟨_, _, rfl⟩) (by simp) ?_
          intro e hh
          simp only [IPc.done.injEq] at hh
          obtain ⟨rfl, rfl⟩ := hh
          have hrc := h.chk hw
          have hnc : ∀ k, c.pc ≠ .closing i k := by
            intro k hk
            have := (h.pc2 k hk).2.1
            rw [hrc.1] at this
            cases this
          refine ⟨hrc.2, ?_⟩
          rcases h.pc3 hnc with h1 | ⟨w, e, h1⟩
          · rw [hi] at h1; cases h1; rfl
          · rw [hw] at h1; cases h1
      · simp at e1

/-! ### The theorems -/

/-- Nothing in `xs` disturbs session `i`, named `sid`: the read loop does not end, the user does not close the session, and the server
does not give its name to another session. -/
def Quiet (sid : UInt32) (i : Nat) (xs : List Act) : Prop :=
  Act.exit ∉ xs ∧ Act.closeSess i ∉ xs ∧ ∀ o pk, Act.read (.ack o sid true pk) ∉ xs

theorem open_run {sid : UInt32} {i : Nat} : ∀ (xs pre : List Act) (c c' : Conn) (s : Sess), Inv c → OpenPh pre sid i c s →
    run xs c = some c' → Quiet sid i xs → (∀ code, Act.read (.close sid code) ∉ xs) → c'.closed = false →
    ∃ s', OpenPh (pre ++ xs) sid i c' s'
  | [], pre, c, c', s, _, h, e, _, _, _ => by
    simp only [run, Option.some.injEq] at e
    subst e
    exact ⟨s, by simpa using h⟩
  | a :: xs, pre, c, c', s, hinv, h, e, hq, hc, hcl => by
    simp only [run, Option.bind_eq_some_iff] at e
    obtain ⟨d, e1, e2⟩ := e
    obtain ⟨q1, q2, q3⟩ := hq
    have hd : d.closed = false := by
      have : ∀ (xs : List Act) (d : Conn), Inv d → run xs d = some c' → d.closed = false := by
        intro xs
        induction xs with
        | nil => intro d _ e; simp only [run, Option.some.injEq] at e; rw [e]; exact hcl
        | cons b xs ih =>
          intro d hi e
          simp only [run, Option.bind_eq_some_iff] at e
          obtain ⟨d', g1, g2⟩ := e
          exact closed_mono hi g1 (ih d' (hi.step g1) g2)
      exact this xs d (hinv.step e1) e2
    rcases h.step hinv e1 (fun hh => q1 (hh ▸ List.mem_cons_self)) (fun hh => q2 (hh ▸ List.mem_cons_self))
      (fun o pk hh => q3 o pk (hh ▸ List.mem_cons_self)) hd with ⟨s', h'⟩ | ⟨code, s', ha, _⟩
    · have := open_run xs (pre ++ [a]) d c' s' (hinv.step e1) h' e2
        ⟨fun hh => q1 (List.mem_cons_of_mem _ hh), fun hh => q2 (List.mem_cons_of_mem _ hh),
          fun o pk hh => q3 o pk (List.mem_cons_of_mem _ hh)⟩ (fun code hh => hc code (List.mem_cons_of_mem _ hh)) hcl
      simpa using this
    · exact absurd (ha ▸ List.mem_cons_self) (hc code)

theorem closed_run {ps : List Pl} {code i : Nat} : ∀ (ys : List Act) (c c' : Conn) (s : Sess), Inv c → ClosedPh ps code i c s →
    run ys c = some c' → ∃ s', ClosedPh ps code i c' s'
  | [], c, c', s, _, h, e => by
    simp only [run, Option.some.injEq] at e
    subst e
    exact ⟨s, h⟩
  | a :: ys, c, c', s, hinv, h, e => by
    simp only [run, Option.bind_eq_some_iff] at e
    obtain ⟨d, e1, e2⟩ := e
    obtain ⟨s', h'⟩ := h.step hinv e1
    exact closed_run ys d c' s' (hinv.step e1) h' e2

/-- After the acknowledgement of open `o`. -/
theorem ack_open {as : List Act} {b : Bool} {c c1 : Conn} {o sid : UInt32} {pk : Bool} {i : Nat}
    (h : run as { usePacking := b } = some c) (hcl : c.closed = false) (hp : lookup c.pending o = some i)
    (e : step c (.read (.ack o sid true pk)) = some c1) : ∃ s, OpenPh [] sid i c1 s := by
  have hinv := reach_inv h
  obtain ⟨s, h1, _, h3, h4⟩ := hinv.pend _ (lookup_mem hp)
  dsimp only at h1
  have f := (reach_fresh h).1 i s h1 h3
  unfold step at e
  rw [if_neg (by simp [hinv.nocrash])] at e
  dsimp only at e
  split at e <;> simp only [Option.some.injEq, reduceCtorEq] at e
  rename_i hidle
  have he : c1 = { c with
      pending := remove c.pending o
      heap := c.heap.set i { s with sid := sid, ready := true }
      sessions := SrvConn.insert c.sessions sid i
      packing := if c.negotiated then c.packing else c.usePacking && pk
      negotiated := true } := by
    rw [← e]
    show handleAck c o sid true pk = _
    unfold handleAck
    rw [hp]
    dsimp only
    rw [h1]
    dsimp only
    rw [if_neg (by simp [h3])]
    rfl
  rw [he]
  refine ⟨{ s with sid := sid, ready := true }, List.getElem?_set_self (List.getElem?_eq_some_iff.1 h1).1, lookup_insert_self, rfl, h4,
    by simp [hidle], f.info, f.cancel hcl, ?_, ?_, ?_⟩
  · simp [f.taken, f.queue, inflight, hidle, since]
  · simp [f.it]
  · simp [f.it]

/-- **C64 (the stream goes on)** The server has acknowledged an open, giving it session `sid`. As long as the server has not closed the
session, the connection stands and nothing disturbs the session, its reader does not find the stream ended, and what the reader has given
to the user is, in order, an initial part of the payloads that came. -/
theorem C64_no_early_end_partial (as xs : List Act) (b : Bool) (c c' : Conn) (o sid : UInt32) (pk : Bool) (i : Nat)
    (h : run as { usePacking := b } = some c) (hcl : c.closed = false) (hp : lookup c.pending o = some i)
    (e : run (.read (.ack o sid true pk) :: xs) c = some c') (hq : Quiet sid i xs) (hc : ∀ code, Act.read (.close sid code) ∉ xs)
    (hcl' : c'.closed = false) :
    ∃ s ps, c'.heap[i]? = some s ∧ (∀ err, s.it ≠ .done (some false) err) ∧ ps <+: since sid xs ∧ s.yielded = userData ps := by
  have e0 := e
  simp only [run, Option.bind_eq_some_iff] at e
  obtain ⟨c1, e1, e2⟩ := e
  obtain ⟨s, h1⟩ := ack_open h hcl hp e1
  obtain ⟨s', h2⟩ := open_run xs [] c1 c' s ((reach_inv h).step e1) h1 e2 hq hc hcl'
  have hr : run (as ++ .read (.ack o sid true pk) :: xs) { usePacking := b } = some c' := by
    rw [run_append, h]
    exact e0
  refine ⟨s', s'.taken, h2.heap, h2.fin, ⟨s'.queue ++ inflight c' i, by simpa using h2.data⟩, reach_yielded hr i s' h2.heap⟩

/-- **C64 (the stream is complete)** The server has acknowledged an open, giving it session `sid`, and later closes the session with
`code`; up to there the connection stands and nothing disturbs the session. Whatever happens after that — even the loss of the connection —
a reader that finds the stream ended has given the user all the payloads that came before the Close frame, in order, and reports the error
of the Close frame. -/
theorem C64_stream_complete_partial (as xs ys : List Act) (b : Bool) (c d c' : Conn) (o sid : UInt32) (pk : Bool) (i code : Nat)
    (h : run as { usePacking := b } = some c) (hcl : c.closed = false) (hp : lookup c.pending o = some i)
    (e : run (.read (.ack o sid true pk) :: xs) c = some d) (hq : Quiet sid i xs) (hc : ∀ k, Act.read (.close sid k) ∉ xs)
    (hcl' : d.closed = false) (e' : run (.read (.close sid code) :: ys) d = some c') (s : Sess) (hs : c'.heap[i]? = some s) :
    (∀ err, s.it = .done (some false) err → s.yielded = userData (since sid xs) ∧ err = errOf code) ∧
      ∃ ps, ps <+: since sid xs ∧ s.yielded = userData ps := by
  have e0 := e
  have e0' := e'
  simp only [run, Option.bind_eq_some_iff] at e e'
  obtain ⟨c1, e1, e2⟩ := e
  obtain ⟨d1, e3, e4⟩ := e'
  obtain ⟨s1, h1⟩ := ack_open h hcl hp e1
  have hinvd : Inv d := Inv.run xs ((reach_inv h).step e1) e2
  obtain ⟨s2, h2⟩ := open_run xs [] c1 d s1 ((reach_inv h).step e1) h1 e2 hq hc hcl'
  have hd1 : d1.closed = false := by
    have e5 := e3
    unfold step at e5
    rw [if_neg (by simp [hinvd.nocrash])] at e5
    dsimp only at e5
    split at e5 <;> simp only [Option.some.injEq, reduceCtorEq] at e5
    subst e5
    unfold read
    dsimp only
    split
    · exact hcl'
    · exact (checkDrained_rest _).2.2.2.2.2.1.trans hcl'
  have hr : run (as ++ (.read (.ack o sid true pk) :: xs ++ (.read (.close sid code) :: ys))) { usePacking := b } = some c' := by
    rw [run_append, h]
    show run _ c = _
    rw [run_append, e0]
    exact e0'
  rcases h2.step hinvd e3 (by simp) (by simp) (by simp) hd1 with ⟨s3, h3⟩ | ⟨k, s3, ha, h3⟩
  · exfalso
    -- the session is no longer in the map
    have e5 := e3
    unfold step at e5
    rw [if_neg (by simp [hinvd.nocrash])] at e5
    dsimp only at e5
    split at e5 <;> simp only [Option.some.injEq, reduceCtorEq] at e5
    have he : d1 = { checkDrained { d with sessions := remove d.sessions sid } with pc := .closing i code } := by
      rw [← e5]
      show (match lookup d.sessions sid with | none => _ | some i => _) = _
      rw [h2.look]
    have hm := lookup_mem h3.look
    rw [he] at hm
    dsimp only at hm
    rw [(checkDrained_rest _).2.1] at hm
    exact (mem_remove.1 hm).2 rfl
  · simp only [Act.read.injEq, Frame.close.injEq] at ha
    obtain ⟨_, rfl⟩ := ha
    obtain ⟨s4, h4⟩ := closed_run ys d1 c' s3 (hinvd.step e3) h3 e4
    have hy := reach_yielded hr i s hs
    have hs4 : s4 = s := by
      have := h4.heap
      rw [hs] at this
      exact (Option.some.inj this).symm
    subst hs4
    have hdata : s4.taken ++ s4.queue = since sid xs := by simpa using h4.data
    refine ⟨?_, s4.taken, ⟨s4.queue, hdata⟩, hy⟩
    intro err hh
    obtain ⟨g1, g2⟩ := h4.fin err hh
    refine ⟨?_, g2⟩
    rw [hy, ← hdata, g1, List.append_nil]

/-- Two streams on one connection, the reader slow; the connection is lost before the reader has read. -/
example : ∃ c d c' s, run [.open, .open, .sendOpen 0, .sendOpen 1, .read (.ack 1 8 true false)] {} = some c ∧ c.closed = false ∧
    lookup c.pending 0 = some 0 ∧
    run [.read (.ack 0 7 true false), .openReady 0, .read (.payload 7 ⟨[1], false⟩ false), .tick, .read (.payload 8 ⟨[5], false⟩ false), .tick,
      .read (.payload 7 ⟨[2], false⟩ false), .tick] c = some d ∧ d.closed = false ∧
    run [.read (.close 7 3), .tick, .tick, .close, .exit, .recv 0, .recv 0, .recv 0, .iterTick 0] d = some c' ∧ c'.heap[0]? = some s ∧
    s.yielded = [[1], [2]] ∧ s.it = .done (some false) (some 3) :=
  ⟨_, _, _, _, rfl, by decide, by decide, rfl, by decide, rfl, rfl, by decide, by decide⟩

end Claw.CliConn
