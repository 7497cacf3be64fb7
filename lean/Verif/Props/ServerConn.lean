import Verif.Lemmas.ServerSteps

/-!
# C37, C38, C39, C54, C55: sessions of a server connection

An execution is any list of actions (`Act`) the goroutines of a connection can take, with any frames from the client:
`run as { allowPacking := b, maxRPC := n } = some c` says that `as` can happen on a fresh connection and leads to `c`.
-/

namespace Claw.SrvConn

open Claw

set_option linter.unusedSimpArgs false

theorem reach_inv {as : List Act} {b : Bool} {n : Nat} {c : Conn} (h : run as { allowPacking := b, maxRPC := n } = some c) : Inv c :=
  Inv.run as (Inv.init b n) h

/-- Induction over an execution. -/
theorem reach_induction (P : List Act → Conn → Prop) {b : Bool} {n : Nat} (h0 : P [] { allowPacking := b, maxRPC := n })
    (hs : ∀ as c a c', Inv c → P as c → step c a = some c' → P (as ++ [a]) c') {as : List Act} {c : Conn}
    (h : run as { allowPacking := b, maxRPC := n } = some c) : P as c := by
  have key : ∀ (as pre : List Act) (c c' : Conn), Inv c → P pre c → run as c = some c' → P (pre ++ as) c' := by
    intro as
    induction as with
    | nil => intro pre c c' _ hp e; simp [run] at e; subst e; simpa using hp
    | cons a as ih =>
      intro pre c c' hi hp e
      simp only [run, Option.bind_eq_some_iff] at e
      obtain ⟨d, e1, e2⟩ := e
      have := ih (pre ++ [a]) d c' (hi.step e1) (hs _ _ _ _ hi hp e1) e2
      simpa using this
  simpa using key as [] _ _ (Inv.init b n) h0 h

/-! ### C37 -/

/-- **C37** No execution, whatever the client sends, makes a goroutine of the connection panic: no channel is closed
twice, nothing is sent on a closed channel, and the handler count does not become negative. -/
theorem C37_no_panic (as : List Act) (b : Bool) (n : Nat) (c : Conn) (h : run as { allowPacking := b, maxRPC := n } = some c) :
    c.crashed = false := (reach_inv h).nocrash

/-- C37, the other half: once the channel of a session is closed it stays closed and no payload comes into it. -/
theorem C37_closed_is_final {as : List Act} {b : Bool} {n : Nat} {c c' : Conn} (h : run as { allowPacking := b, maxRPC := n } = some c)
    {a : Act} (e : step c a = some c') {i : Nat} {s : Sess} (hs : c.heap[i]? = some s) (hr : s.recvClosed = true) :
    ∃ s', c'.heap[i]? = some s' ∧ s'.recvClosed = true ∧ s'.got ++ s'.queue = s.got ++ s.queue := by
  have hi := (List.getElem?_eq_some_iff.1 hs).1
  have later : AllLater (fun _ => Eq) c.heap c'.heap → ∃ s', c'.heap[i]? = some s' ∧ s'.recvClosed = true ∧
      s'.got ++ s'.queue = s.got ++ s.queue := by
    intro hl
    have hi' : i < c'.heap.length := by rw [hl.1]; exact hi
    obtain ⟨k, _⟩ := hl.2 i s c'.heap[i] hs (by simp [hi'])
    exact ⟨c'.heap[i], by simp [hi'], k.recv hr, k.data⟩
  have set : ∀ (j : Nat) (t t' : Sess), c.heap[j]? = some t → c'.heap = c.heap.set j t' →
      (t.recvClosed = true → t'.recvClosed = true ∧ t'.got ++ t'.queue = t.got ++ t.queue) →
      ∃ s', c'.heap[i]? = some s' ∧ s'.recvClosed = true ∧ s'.got ++ s'.queue = s.got ++ s.queue := by
    intro j t t' hj he ht
    by_cases hji : j = i
    · subst hji
      rw [hs] at hj
      cases hj
      exact ⟨t', by rw [he]; simp [hi], (ht hr).1, (ht hr).2⟩
    · exact ⟨s, by rw [he, List.getElem?_set_ne hji]; exact hs, hr, rfl⟩
  have hself : ∀ m, (send c m).heap = c.heap := by
    intro m; obtain ⟨o, e⟩ := send_frame c m; rw [e]
  cases step_effect (reach_inv h) e with
  | quiet hl => exact later hl
  | misc => exact ⟨s, by show (send c _).heap[i]? = _; rw [hself]; exact hs, hr, rfl⟩
  | create hp hd =>
    refine ⟨s, ?_, hr, rfl⟩
    unfold create
    rw [if_neg (by simp [hd])]
    show (c.heap ++ _)[i]? = _
    rw [List.getElem?_append_left hi]; exact hs
  | ack => exact ⟨s, by show (send c _).heap[i]? = _; rw [hself]; exact hs, hr, rfl⟩
  | start hp hs' => exact set _ _ _ hs' rfl (fun hh => ⟨hh, rfl⟩)
  | push hp hs' hr' => exact set _ _ _ hs' rfl (fun hh => by rw [hr'] at hh; simp at hh)
  | reply hs' hh => exact ⟨s, by rw [hself]; exact hs, hr, rfl⟩
  | ended hs' hh => exact set _ _ _ hs' rfl (fun hh => ⟨hh, rfl⟩)
  | unwind hs' hl hh => exact set _ _ _ hs' rfl (fun hh => ⟨hl.recv hh, hl.data⟩)

/-- Open, a payload, Close, then another payload and a second Close for the same session, and the end of the loop. -/
def closeTwice : List Act :=
  [.read (.open 7 true true false), .tick, .tick, .tick, .read (.payload 1 ⟨0, [1]⟩ false), .tick, .read (.close 1), .tick,
   .read (.payload 1 ⟨1, [2]⟩ false), .read (.close 1), .read (.cancel 1), .recv 0, .exit]

example : ∃ c, run closeTwice {} = some c ∧
    c.heap = [{ id := 1, recvClosed := true, h := .running, got := [⟨0, [1]⟩] }] := ⟨_, rfl, by decide⟩

/-! ### C38 -/

/-- The identifiers given out in successful OpenAcks, in the order in which they were written. -/
def ackIds : List (Sent × Bool) → List UInt32
  | [] => []
  | (.ack _ sid true _, _) :: out => sid :: ackIds out
  | _ :: out => ackIds out

theorem ackIds_append : ∀ (a b : List (Sent × Bool)), ackIds (a ++ b) = ackIds a ++ ackIds b
  | [], b => rfl
  | (m, k) :: a, b => by
    have := ackIds_append a b
    cases m with
    | ack o sid ok p => cases ok <;> simp [ackIds, this]
    | _ => simp [ackIds, this]

/-- Session number `i` has identifier `i + 1`, modulo 2^32. -/
structure Ids (c : Conn) : Prop where
  id : ∀ (i : Nat) s, c.heap[i]? = some s → s.id = UInt32.ofNat (i + 1)
  next : c.next = UInt32.ofNat (c.heap.length + 1)

theorem allLater_ids {H : Nat → HPc → HPc → Prop} {l l' : List Sess} (h : AllLater H l l') :
    l'.map (·.id) = l.map (·.id) := by
  apply List.ext_getElem?
  intro i
  simp only [List.getElem?_map]
  by_cases hi : i < l.length
  · have hi' : i < l'.length := by rw [h.1]; exact hi
    have := (h.2 i l[i] l'[i] (by simp [hi]) (by simp [hi'])).1.sid
    simp [hi, hi', this]
  · have hi' : ¬ i < l'.length := by rw [h.1]; exact hi
    simp [hi, hi']

theorem set_ids {l : List Sess} {i : Nat} {s s' : Sess} (hs : l[i]? = some s) (hid : s'.id = s.id) :
    (l.set i s').map (·.id) = l.map (·.id) := by
  rw [List.map_set]
  apply List.ext_getElem?
  intro j
  by_cases hj : i = j
  · subst hj
    have hi := (List.getElem?_eq_some_iff.1 hs).1
    rw [List.getElem?_set_self (by simpa using hi), List.getElem?_map, hs]
    simp [hid]
  · rw [List.getElem?_set_ne hj]

/-- Sessions are only added by `create`. -/
theorem effect_ids {c c' : Conn} {a : Act} (h : Effect c a c') :
    (c'.heap.map (·.id) = c.heap.map (·.id) ∧ c'.next = c.next) ∨
    (∃ o pk, c.pc = .creating o pk ∧ c.draining = false ∧ c' = create c o pk) := by
  have hself : ∀ m, (send c m).heap = c.heap ∧ (send c m).next = c.next := by
    intro m; obtain ⟨o, e⟩ := send_frame c m; rw [e]; exact ⟨rfl, rfl⟩
  cases h with
  | quiet hl _ hn => exact .inl ⟨allLater_ids hl, hn⟩
  | @misc _ m => exact .inl ⟨by show (send c m).heap.map _ = _; rw [(hself m).1], (hself m).2⟩
  | create hp hd => exact .inr ⟨_, _, hp, hd, rfl⟩
  | @ack o i s => exact .inl ⟨by show (send c (.ack o s.id true c.packing)).heap.map _ = _; rw [(hself _).1], (hself _).2⟩
  | start hp hs => exact .inl ⟨set_ids hs rfl, rfl⟩
  | push hp hs => exact .inl ⟨set_ids hs rfl, rfl⟩
  | reply hs => exact .inl ⟨by rw [(hself _).1], (hself _).2⟩
  | ended hs => exact .inl ⟨set_ids hs rfl, (hself _).2⟩
  | unwind hs hl => exact .inl ⟨set_ids hs hl.sid, rfl⟩

theorem create_heap {c : Conn} {o : UInt32} {pk : Bool} (hd : c.draining = false) :
    (create c o pk).heap = c.heap ++ [{ id := c.next }] ∧ (create c o pk).next = c.next + 1 ∧
    (create c o pk).pc = .acking o c.heap.length ∧ (create c o pk).out = c.out ∧ (create c o pk).closed = c.closed ∧
    (create c o pk).draining = c.draining := by
  unfold create
  rw [if_neg (by simp [hd])]
  exact ⟨rfl, rfl, rfl, rfl, rfl, rfl⟩

theorem ids_step {c c' : Conn} {a : Act} (hi : Ids c) (he : Effect c a c') : Ids c' := by
  rcases effect_ids he with ⟨h1, h2⟩ | ⟨o, pk, _, hd, rfl⟩
  · have hlen : c'.heap.length = c.heap.length := by simpa using congrArg List.length h1
    constructor
    · intro i s hs
      have : (c'.heap.map (·.id))[i]? = some s.id := by simp [hs]
      rw [h1, List.getElem?_map, Option.map_eq_some_iff] at this
      obtain ⟨t, h3, h4⟩ := this
      rw [← h4]; exact hi.id i t h3
    · rw [h2, hlen]; exact hi.next
  · obtain ⟨h1, h2, _⟩ := create_heap (o := o) (pk := pk) hd
    constructor
    · intro i s hs
      rw [h1] at hs
      by_cases hlt : i < c.heap.length
      · rw [List.getElem?_append_left hlt] at hs
        exact hi.id i s hs
      · have hle : i < (c.heap ++ [({ id := c.next } : Sess)]).length := (List.getElem?_eq_some_iff.1 hs).1
        have : i = c.heap.length := by simp at hle; omega
        subst this
        simp at hs
        rw [← hs]; exact hi.next
    · rw [h1, h2, hi.next]
      simp [UInt32.ofNat_add]

theorem reach_ids {as : List Act} {b : Bool} {n : Nat} {c : Conn} (h : run as { allowPacking := b, maxRPC := n } = some c) : Ids c :=
  reach_induction (fun _ c => Ids c) ⟨by simp, rfl⟩ (fun _ _ _ _ hi hp e => ids_step hp (step_effect hi e)) h

theorem send_out (c : Conn) (m : Sent) : (c.closed = true ∧ (send c m).out = c.out) ∨
    (c.closed = false ∧ ∃ k, (send c m).out = c.out ++ [(m, k)]) := by
  unfold send
  cases hc : c.closed with
  | true => exact .inl ⟨rfl, by simp⟩
  | false => exact .inr ⟨rfl, _, by simp; rfl⟩

/-- The acknowledged identifiers are identifiers of sessions, each once. -/
structure Acked (c : Conn) : Prop where
  now : ∀ o i, c.pc = .acking o i → i + 1 = c.heap.length ∧ (ackIds c.out).Sublist ((c.heap.map (·.id)).take i)
  all : (ackIds c.out).Sublist (c.heap.map (·.id))

theorem acked_step {c c' : Conn} {a : Act} (hi : Acked c) (he : Effect c a c') : Acked c' := by
  have hself : ∀ m, (send c m).heap = c.heap ∧ (send c m).pc = c.pc := by
    intro m; obtain ⟨o, e⟩ := send_frame c m; rw [e]; exact ⟨rfl, rfl⟩
  have heq : ∀ c'' : Conn, c''.heap.map (·.id) = c.heap.map (·.id) → ackIds c''.out = ackIds c.out →
      (∀ o i, c''.pc = .acking o i → c.pc = .acking o i) → Acked c'' := by
    intro c'' h1 h2 h3
    have hlen : c''.heap.length = c.heap.length := by simpa using congrArg List.length h1
    exact ⟨fun o i hp => by rw [hlen, h1, h2]; exact hi.now o i (h3 o i hp), by rw [h1, h2]; exact hi.all⟩
  cases he with
  | quiet hl ho hn hpk hap hc hd hpc =>
    refine heq _ (allLater_ids hl) (by rw [ho]) ?_
    intro o i hp
    rcases hpc with hpc | ⟨hpc, _⟩ | ⟨_, _, _, hpc⟩ | ⟨hpc, _⟩ | ⟨_, _, hpc⟩ | ⟨_, _, _, hpc⟩
    · rw [← hpc]; exact hp
    · rw [hp] at hpc; simp at hpc
    · exact absurd hp (hpc o i)
    · rw [hp] at hpc; simp at hpc
    · rw [hp] at hpc; simp at hpc
    · rw [hp] at hpc; simp at hpc
  | @misc _ m gs pc hm hpc =>
    refine heq _ (by show (send c m).heap.map _ = _; rw [(hself m).1]) ?_ ?_
    · show ackIds (send c m).out = _
      rcases send_out c m with ⟨_, e⟩ | ⟨_, k, e⟩
      · rw [e]
      · rw [e, ackIds_append]
        rcases hm with ⟨o, rfl⟩ | ⟨n, rfl⟩ | ⟨n, rfl⟩ <;> simp [ackIds]
    · intro o i hp
      replace hp : pc = .acking o i := hp
      rcases hpc with hpc | ⟨hpc, _⟩
      · rw [← hpc]; exact hp
      · rw [hpc] at hp; simp at hp
  | create hp hd =>
    obtain ⟨h1, _, h3, h4, _⟩ := create_heap (c := c) hd
    refine ⟨fun o' i' hp' => ?_, ?_⟩
    · rw [h3] at hp'
      simp only [RPc.acking.injEq] at hp'
      obtain ⟨_, rfl⟩ := hp'
      rw [h1, h4]
      refine ⟨by simp, ?_⟩
      rw [List.map_append, List.take_append_of_le_length (by simp)]
      rw [List.take_of_length_le (by simp)]
      exact hi.all
    · rw [h1, h4, List.map_append]
      exact hi.all.trans (List.sublist_append_left _ _)
  | @ack o i s hp hs =>
    obtain ⟨h1, h2⟩ := hi.now o i hp
    refine ⟨fun o' i' hp' => by simp at hp', ?_⟩
    show (ackIds (send c (.ack o s.id true c.packing)).out).Sublist ((send c (.ack o s.id true c.packing)).heap.map _)
    rw [(hself _).1]
    rcases send_out c (.ack o s.id true c.packing) with ⟨_, e⟩ | ⟨_, k, e⟩
    · rw [e]; exact hi.all
    · rw [e, ackIds_append]
      have hsplit : c.heap.map (·.id) = (c.heap.map (·.id)).take i ++ [s.id] := by
        have hlt := (List.getElem?_eq_some_iff.1 hs).1
        have hget := (List.getElem?_eq_some_iff.1 hs).2
        have h3 := List.take_append_drop i (c.heap.map (·.id))
        have h4 : (c.heap.map (·.id)).drop i = [s.id] := by
          apply List.ext_getElem?
          intro j
          rw [List.getElem?_drop, List.getElem?_map]
          cases j with
          | zero => simp [hs]
          | succ j =>
            have : c.heap[i + (j + 1)]? = none := by simp; omega
            rw [this]; simp
        rw [h4] at h3
        exact h3.symm
      rw [hsplit]
      exact List.Sublist.append h2 (by simp [ackIds])
  | start hp hs => exact heq _ (set_ids hs rfl) rfl (by simp)
  | push hp hs => exact heq _ (set_ids hs rfl) rfl (by simp)
  | @reply i s p hs hh =>
    refine heq _ (by rw [(hself _).1]) ?_ (fun o i hp => by rw [← (hself (.payload s.id p)).2]; exact hp)
    rcases send_out c (.payload s.id p) with ⟨_, e⟩ | ⟨_, k, e⟩
    · rw [e]
    · rw [e, ackIds_append]; simp [ackIds]
  | @ended i s hs hh =>
    refine heq _ (set_ids hs rfl) ?_ (fun o i hp => by
      have : (send c (.close s.id)).pc = .acking o i := hp
      rw [(hself _).2] at this; exact this)
    show ackIds (send c (.close s.id)).out = _
    rcases send_out c (.close s.id) with ⟨_, e⟩ | ⟨_, k, e⟩
    · rw [e]
    · rw [e, ackIds_append]; simp [ackIds]
  | unwind hs hl => exact heq _ (set_ids hs hl.sid) rfl (fun _ _ h => h)

theorem reach_acked {as : List Act} {b : Bool} {n : Nat} {c : Conn} (h : run as { allowPacking := b, maxRPC := n } = some c) : Acked c :=
  reach_induction (fun _ c => Acked c) ⟨by simp, by simp [ackIds]⟩
    (fun _ _ _ _ hi hp e => acked_step hp (step_effect hi e)) h

theorem ofNat_inj32 {a b : Nat} (ha : a < 2 ^ 32) (hb : b < 2 ^ 32) (h : UInt32.ofNat a = UInt32.ofNat b) : a = b := by
  have := congrArg UInt32.toNat h
  rw [UInt32.toNat_ofNat', UInt32.toNat_ofNat', Nat.mod_eq_of_lt ha, Nat.mod_eq_of_lt hb] at this
  exact this

/-- **C38** As long as a connection has had fewer than 2^32 sessions, the identifiers in its successful OpenAcks are
all different and none is zero. -/
theorem C38_ids_unique_partial {as : List Act} {b : Bool} {n : Nat} {c : Conn} (h : run as { allowPacking := b, maxRPC := n } = some c)
    (hn : c.heap.length < 2 ^ 32) : (ackIds c.out).Nodup ∧ 0 ∉ ackIds c.out := by
  have hids := reach_ids h
  have hsub := (reach_acked h).all
  have hmap : c.heap.map (·.id) = (List.range c.heap.length).map fun i => UInt32.ofNat (i + 1) := by
    apply List.ext_getElem?
    intro i
    simp only [List.getElem?_map]
    by_cases hi : i < c.heap.length
    · have := hids.id i c.heap[i] (by simp [hi])
      simp [hi, this]
    · simp [hi]
  rw [hmap] at hsub
  constructor
  · refine List.Nodup.sublist hsub ?_
    rw [List.Nodup, List.pairwise_map]
    refine List.Pairwise.imp_of_mem ?_ (List.nodup_range (n := c.heap.length))
    intro x y hx hy hne e
    simp at hx hy
    have := ofNat_inj32 (by omega) (by omega) e
    omega
  · intro h0
    obtain ⟨i, hi, e⟩ := List.mem_map.1 (hsub.mem h0)
    simp at hi
    have := ofNat_inj32 (a := i + 1) (b := 0) (by omega) (by omega) e
    omega

/-- A client that does nothing but open sessions. -/
def openMany : Nat → List Act
  | 0 => []
  | n + 1 => openMany n ++ [.read (.open 0 true true false), .tick, .tick, .tick]

theorem run_append : ∀ (as bs : List Act) (c : Conn), run (as ++ bs) c = (run as c).bind (run bs)
  | [], bs, c => rfl
  | a :: as, bs, c => by
    simp only [List.cons_append, run]
    cases step c a with
    | none => rfl
    | some d => exact run_append as bs d

theorem openMany_run (n : Nat) : ∃ c, run (openMany n) {} = some c ∧ c.heap.length = n ∧ c.pc = .idle ∧
    c.draining = false ∧ c.closed = false ∧ c.maxRPC = 0 ∧
    ackIds c.out = (List.range n).map fun i => UInt32.ofNat (i + 1) := by
  induction n with
  | zero => exact ⟨_, rfl, rfl, rfl, rfl, rfl, rfl, rfl⟩
  | succ n ih =>
    obtain ⟨c, e, h1, h2, h3, h4, hm, h5⟩ := ih
    have hc := (reach_inv e).nocrash
    have hnext := (reach_ids e).next
    rw [h1] at hnext
    obtain ⟨g1, g2, g3, g4, g5, g6⟩ := create_heap (c := { c with pc := .creating 0 false }) (o := 0) (pk := false) h3
    have s1 : step c (.read (.open 0 true true false)) = some { c with pc := .creating 0 false } := by
      simp [step, hc, h2, read, h3]
    have hcr : (create { c with pc := .creating 0 false } 0 false).crashed = false := by
      unfold create; rw [if_neg (by simp [h3])]; exact hc
    have hmr : (create { c with pc := .creating 0 false } 0 false).maxRPC = 0 := by
      unfold create; rw [if_neg (by simp [h3])]; exact hm
    have s2 : step { c with pc := .creating 0 false } .tick = some (create { c with pc := .creating 0 false } 0 false) := by
      simp [step, hc, tick]
    generalize hd : create { c with pc := .creating 0 false } 0 false = d at *
    have hget : d.heap[c.heap.length]? = some { id := c.next } := by rw [g1]; simp
    have s3 : step d .tick = some { send d (.ack 0 c.next true d.packing) with pc := .submitting c.heap.length } := by
      simp [step, hcr, tick, g3, hget]
    obtain ⟨o, eo⟩ := send_frame d (.ack 0 c.next true d.packing)
    have s4 : step { send d (.ack 0 c.next true d.packing) with pc := .submitting c.heap.length } .tick =
        some { send d (.ack 0 c.next true d.packing) with
          heap := d.heap.set c.heap.length { id := c.next, h := .running }, pc := .idle } := by
      rw [eo]
      simp [step, hcr, tick, hget, free, hmr]
    refine ⟨{ send d (.ack 0 c.next true d.packing) with
          heap := d.heap.set c.heap.length { id := c.next, h := .running }, pc := .idle }, ?_, ?_, rfl, ?_, ?_, ?_, ?_⟩
    · rw [openMany, run_append, e]
      simp only [Option.bind_some, run, s1, s2, s3, s4]
    · simp [g1, h1]
    · rw [eo]; exact g6.trans h3
    · rw [eo]; exact g5.trans h4
    · rw [eo]; exact hmr
    · show ackIds (send d _).out = _
      rcases send_out d (.ack 0 c.next true d.packing) with ⟨k, _⟩ | ⟨_, k, e⟩
      · rw [g5] at k; rw [show c.closed = true from k] at h4; simp at h4
      · rw [e, ackIds_append, g4]
        show ackIds c.out ++ _ = _
        rw [h5, List.range_succ, List.map_append, hnext]
        simp [ackIds]

/-- C38 fails after 2^32 sessions: the last one gets the identifier 0, which the client takes for a rejected open, and
the next one gets the identifier of the first session, which is still open. -/
theorem C38_ids_wrap : ∃ as c, run as {} = some c ∧ (ackIds c.out)[0]? = some 1 ∧
    (ackIds c.out)[2 ^ 32 - 1]? = some 0 ∧ (ackIds c.out)[2 ^ 32]? = some 1 := by
  obtain ⟨c, e, _, _, _, _, _, h⟩ := openMany_run (2 ^ 32 + 1)
  refine ⟨_, c, e, ?_⟩
  rw [h]
  simp only [List.getElem?_map]
  refine ⟨?_, ?_, ?_⟩
  · rw [List.getElem?_range (by omega)]; rfl
  · rw [List.getElem?_range (by omega)]; rfl
  · rw [List.getElem?_range (by omega)]; rfl

/-! ### C39 -/

/-- **C39** Once a graceful close has started, no session is made any more. -/
theorem C39_no_new_sessions {as : List Act} {b : Bool} {n : Nat} {c : Conn} (h : run as { allowPacking := b, maxRPC := n } = some c)
    (hd : c.draining = true) : ∀ (bs : List Act) {c' : Conn}, run bs c = some c' →
      c'.heap.length = c.heap.length ∧ c'.draining = true := by
  intro bs
  have hi := reach_inv h
  clear h as b
  induction bs generalizing c with
  | nil => intro c' e; simp [run] at e; subst e; exact ⟨rfl, hd⟩
  | cons a bs ih =>
    intro c' e
    simp only [run, Option.bind_eq_some_iff] at e
    obtain ⟨d, e1, e2⟩ := e
    have heff := step_effect hi e1
    have hdr : d.draining = true := by
      have hself : ∀ m, (send c m).draining = c.draining := by
        intro m; obtain ⟨o, e⟩ := send_frame c m; rw [e]
      cases heff with
      | quiet _ _ _ _ _ _ h => exact h hd
      | @misc _ m => show (send c m).draining = _; rw [hself]; exact hd
      | create hp hd' => rw [hd] at hd'; simp at hd'
      | @ack o i s => show (send c (.ack o s.id true c.packing)).draining = _; rw [hself]; exact hd
      | start => exact hd
      | push => exact hd
      | reply => rw [hself]; exact hd
      | @ended i s => show (send c (.close s.id)).draining = _; rw [hself]; exact hd
      | unwind => exact hd
    have hlen : d.heap.length = c.heap.length := by
      rcases effect_ids heff with ⟨h1, _⟩ | ⟨_, _, _, hd', _⟩
      · simpa using congrArg List.length h1
      · rw [hd] at hd'; simp at hd'
    obtain ⟨k1, k2⟩ := ih hdr (hi.step e1) e2
    exact ⟨k1.trans hlen, k2⟩

/-- C39, second half: when a graceful close that found the connection open has returned success, all handlers of
all sessions of the connection have finished. -/
theorem C39_success_means_done_partial {as : List Act} {b : Bool} {n : Nat} {c : Conn} (h : run as { allowPacking := b, maxRPC := n } = some c)
    (hg : .finished ∈ c.gs) : ∀ s ∈ c.heap, s.h = .done := by
  have hi := reach_inv h
  have h0 : unfinished c.heap = 0 := by rw [← hi.wg]; exact hi.fin hg
  intro s hs
  rw [unfinished, List.countP_eq_zero] at h0
  simpa using h0 s hs

/-- A session with a payload, a graceful close while its handler runs, then the handler returns. -/
def drainDemo : List Act :=
  [.read (.open 7 true true false), .tick, .tick, .tick, .graceful, .drain 0, .read (.open 8 true true false), .tick,
   .read (.close 1), .tick, .ret 0, .ret 0, .ret 0, .ret 0, .drain 0]

example : ∃ c, run drainDemo {} = some c ∧ c.gs = [.finished] ∧ c.heap.length = 1 ∧
    c.out = [(.ack 7 1 true false, false), (.goAway 1, false), (.ack 8 0 false false, false), (.close 1, false)] :=
  ⟨_, rfl, by decide, by decide, by decide⟩

/-- C39 fails when the connection is already closed, for example because the client went away: graceful close
returns success at once, with the handler still running. -/
theorem C39_returns_early : ∃ as c, run as {} = some c ∧ c.gs = [.early] ∧ ∃ s ∈ c.heap, s.h = .running :=
  ⟨[.read (.open 7 true true false), .tick, .tick, .tick, .close, .graceful], _, rfl, by decide, _, List.mem_cons_self, rfl⟩

/-! ### C54 -/

/-- The payloads the client sent for session `id` (and that were not dropped for their size), in order. -/
def sentTo (id : UInt32) : List Act → List Pl
  | [] => []
  | .read (.payload id' p false) :: as => if id' = id then p :: sentTo id as else sentTo id as
  | _ :: as => sentTo id as

theorem sentTo_append (id : UInt32) : ∀ (a b : List Act), sentTo id (a ++ b) = sentTo id a ++ sentTo id b
  | [], b => rfl
  | x :: a, b => by
    have := sentTo_append id a b
    cases x with
    | read f =>
      cases f with
      | payload id' p d =>
        cases d
        · simp only [List.cons_append, sentTo, this]; split <;> simp
        · simp only [List.cons_append, sentTo, this]
      | _ => simp only [List.cons_append, sentTo, this]
    | _ => simp only [List.cons_append, sentTo, this]

/-- What a session has got, what waits in its channel and what the read loop is about to put there. -/
def comingTo (c : Conn) (i : Nat) (s : Sess) : List Pl :=
  s.got ++ s.queue ++ (match c.pc with | .sending j p => if j = i then [p] else [] | _ => [])

theorem order_step {c c' : Conn} {a : Act} {as : List Act} (hinv : Inv c)
    (hp : ∀ (i : Nat) s, c.heap[i]? = some s → (comingTo c i s).Sublist (sentTo s.id as)) (he : Effect c a c') :
    ∀ (i : Nat) s, c'.heap[i]? = some s → (comingTo c' i s).Sublist (sentTo s.id (as ++ [a])) := by
  have mono : ∀ {l : List Pl} {id : UInt32}, l.Sublist (sentTo id as) → l.Sublist (sentTo id (as ++ [a])) := by
    intro l id h
    rw [sentTo_append]
    exact h.trans (List.sublist_append_left _ _)
  have less : ∀ (i : Nat) s, c.heap[i]? = some s → (s.got ++ s.queue).Sublist (sentTo s.id as) := by
    intro i s hs
    exact (List.sublist_append_left _ _).trans (hp i s hs)
  have hself : ∀ m, (send c m).heap = c.heap ∧ (send c m).pc = c.pc := by
    intro m; obtain ⟨o, e⟩ := send_frame c m; rw [e]; exact ⟨rfl, rfl⟩
  -- the same objects up to `Later`, and the read loop is not about to send, or as before
  have main : ∀ c'' : Conn, (∀ (i : Nat) s', c''.heap[i]? = some s' → ∃ s, c.heap[i]? = some s ∧ s'.id = s.id ∧
      s'.got ++ s'.queue = s.got ++ s.queue) → (c''.pc = c.pc ∨ ∀ i p, c''.pc ≠ .sending i p) →
      ∀ (i : Nat) s, c''.heap[i]? = some s → (comingTo c'' i s).Sublist (sentTo s.id (as ++ [a])) := by
    intro c'' h1 h2 i s' hs'
    obtain ⟨s, hs, k1, k2⟩ := h1 i s' hs'
    rw [k1]
    rcases h2 with h2 | h2
    · have := hp i s hs
      unfold comingTo at this ⊢
      rw [k2, h2]
      exact mono this
    · have : comingTo c'' i s' = s'.got ++ s'.queue := by
        unfold comingTo
        cases hpc : c''.pc with
        | sending j p => exact absurd hpc (h2 j p)
        | _ => simp
      rw [this, k2]
      exact mono (less i s hs)
  have setOk : ∀ (j : Nat) (t t' : Sess), c.heap[j]? = some t → t'.id = t.id → t'.got ++ t'.queue = t.got ++ t.queue →
      ∀ (i : Nat) s', (c.heap.set j t')[i]? = some s' → ∃ s, c.heap[i]? = some s ∧ s'.id = s.id ∧
        s'.got ++ s'.queue = s.got ++ s.queue := by
    intro j t t' hj h1 h2 i s' hs'
    by_cases hji : j = i
    · subst hji
      rw [List.getElem?_set_self (List.getElem?_eq_some_iff.1 hj).1] at hs'
      cases hs'
      exact ⟨t, hj, h1, h2⟩
    · rw [List.getElem?_set_ne hji] at hs'
      exact ⟨s', hs', rfl, rfl⟩
  have same : ∀ (i : Nat) s', c.heap[i]? = some s' → ∃ s, c.heap[i]? = some s ∧ s'.id = s.id ∧
      s'.got ++ s'.queue = s.got ++ s.queue := fun i s' hs' => ⟨s', hs', rfl, rfl⟩
  cases he with
  | quiet hl ho hn hpk hap hc hd hpc =>
    have hall : ∀ (i : Nat) s', c'.heap[i]? = some s' → ∃ s, c.heap[i]? = some s ∧ s'.id = s.id ∧
        s'.got ++ s'.queue = s.got ++ s.queue := by
      intro i s' hs'
      have hi : i < c.heap.length := by rw [← hl.1]; exact (List.getElem?_eq_some_iff.1 hs').1
      obtain ⟨k, _⟩ := hl.2 i c.heap[i] s' (by simp [hi]) hs'
      exact ⟨c.heap[i], by simp [hi], k.sid, k.data⟩
    rcases hpc with hpc | ⟨hpc, _⟩ | ⟨hidle, ⟨f, rfl, hf⟩, _⟩ | ⟨hpc, _⟩ | ⟨_, _, hpc⟩ | ⟨_, _, _, hpc⟩
    · exact main _ hall (.inl hpc)
    · exact main _ hall (.inr (by simp [hpc]))
    · intro i s' hs'
      by_cases hsend : ∃ j p, c'.pc = .sending j p
      · obtain ⟨j, p, hj⟩ := hsend
        obtain ⟨t, ht, rfl⟩ := hf j p hj
        obtain ⟨s, hs, k1, k2⟩ := hall i s' hs'
        unfold comingTo
        rw [hj, k1, k2, sentTo_append]
        by_cases hji : j = i
        · subst hji
          rw [hs] at ht
          cases ht
          simp only [if_true, sentTo]
          exact List.Sublist.append (less _ _ hs) (.refl _)
        · simp only [if_neg hji, List.append_nil]
          exact (less _ _ hs).trans (List.sublist_append_left _ _)
      · exact main _ hall (.inr fun j p e => hsend ⟨j, p, e⟩) i s' hs'
    · exact main _ hall (.inr (by simp [hpc]))
    · exact main _ hall (.inr (by simp [hpc]))
    · exact main _ hall (.inr (by simp [hpc]))
  | @misc _ m gs pc hm hpc =>
    refine main _ (by show ∀ (i : Nat) s', (send c m).heap[i]? = some s' → _; rw [(hself m).1]; exact same) ?_
    rcases hpc with hpc | ⟨hpc, _⟩
    · exact .inl hpc
    · exact .inr (by simp [hpc])
  | @create o pk hpc hd =>
    obtain ⟨h1, _, h3, _⟩ := create_heap (c := c) (o := o) (pk := pk) hd
    intro i s' hs'
    rw [h1] at hs'
    have hco : comingTo (create c o pk) i s' = s'.got ++ s'.queue := by unfold comingTo; rw [h3]; simp
    rw [hco]
    by_cases hlt : i < c.heap.length
    · rw [List.getElem?_append_left hlt] at hs'
      exact mono (less i s' hs')
    · have hle : i < (c.heap ++ [({ id := c.next } : Sess)]).length := (List.getElem?_eq_some_iff.1 hs').1
      have : i = c.heap.length := by simp at hle; omega
      subst this
      simp at hs'
      rw [← hs']
      simp
  | @ack o i s => exact main _ (by show ∀ (i : Nat) s', (send c (.ack o s.id true c.packing)).heap[i]? = some s' → _; rw [(hself _).1]; exact same) (.inr (by simp))
  | start hpc hs => exact main _ (setOk _ _ _ hs rfl rfl) (.inr (by simp))
  | @push j t p hpc hs hr =>
    intro i s' hs'
    have hco : comingTo { c with heap := c.heap.set j { t with queue := t.queue ++ [p] }, pc := .idle } i s' =
        s'.got ++ s'.queue := by unfold comingTo; simp
    rw [hco]
    replace hs' : (c.heap.set j { t with queue := t.queue ++ [p] })[i]? = some s' := hs'
    by_cases hji : j = i
    · subst hji
      rw [List.getElem?_set_self (List.getElem?_eq_some_iff.1 hs).1] at hs'
      cases hs'
      have := hp j t hs
      unfold comingTo at this
      rw [hpc] at this
      simp only [if_true] at this
      rw [← List.append_assoc]
      exact mono this
    · rw [List.getElem?_set_ne hji] at hs'
      exact mono (less i s' hs')
  | @reply i s p hs hh => exact main _ (by rw [(hself _).1]; exact same) (.inl (hself _).2)
  | @ended i s hs hh => exact main _ (setOk _ _ _ hs rfl rfl) (.inl (hself (.close s.id)).2)
  | unwind hs hl => exact main _ (setOk _ _ _ hs hl.sid hl.data) (.inl rfl)

/-- **C54** What the handler of a session receives is, in order and without repetition, part of what the client sent
with that session's identifier: no payload of another session, none twice, none out of order. -/
theorem C54_payloads_in_order {as : List Act} {b : Bool} {n : Nat} {c : Conn} (h : run as { allowPacking := b, maxRPC := n } = some c)
    {i : Nat} {s : Sess} (hs : c.heap[i]? = some s) : (s.got ++ s.queue).Sublist (sentTo s.id as) := by
  have := reach_induction (fun as c => ∀ (i : Nat) s, c.heap[i]? = some s → (comingTo c i s).Sublist (sentTo s.id as))
    (by simp) (fun as c a c' hi hp e => order_step hi hp (step_effect hi e)) h i s hs
  exact (List.sublist_append_left _ _).trans this

/-- Two sessions, payloads to both in turns. -/
def twoSessions : List Act :=
  [.read (.open 7 true true false), .tick, .tick, .tick, .read (.open 8 true true false), .tick, .tick, .tick,
   .read (.payload 1 ⟨0, [1]⟩ false), .tick, .read (.payload 2 ⟨0, [9]⟩ false), .tick, .recv 0,
   .read (.payload 1 ⟨1, [2]⟩ false), .tick, .recv 0]

example : ∃ c, run twoSessions {} = some c ∧ (c.heap.map (·.got) = [[⟨0, [1]⟩, ⟨1, [2]⟩], []]) ∧
    sentTo 1 twoSessions = [⟨0, [1]⟩, ⟨1, [2]⟩] ∧ sentTo 2 twoSessions = [⟨0, [9]⟩] :=
  ⟨_, rfl, by decide, by decide, by decide⟩

end Claw.SrvConn
