import Verif.Props.ServerConn

/-!
# C55: the frames a server connection sends for a session
-/

namespace Claw.SrvConn

open Claw

set_option linter.unusedSimpArgs false

/-- A frame that belongs to session `sid`. -/
def about (sid : UInt32) : Sent → Bool
  | .ack _ id ok _ => ok && id == sid
  | .payload id _ => id == sid
  | .close id => id == sid
  | _ => false

/-- The frames of session `sid` in the order in which they were written. -/
def framesOf (sid : UInt32) (out : List (Sent × Bool)) : List Sent := (out.map (·.1)).filter (about sid)

/-- An OpenAck, then payloads. -/
def Begun (sid : UInt32) (fs : List Sent) : Prop :=
  ∃ o pk ps, fs = .ack o sid true pk :: ps ∧ ∀ m ∈ ps, ∃ p, m = .payload sid p

/-- Nothing; or an OpenAck, then payloads, then at most one Close, then nothing. -/
def Bracket (sid : UInt32) (fs : List Sent) : Prop :=
  fs = [] ∨ Begun sid fs ∨ ∃ gs, Begun sid gs ∧ fs = gs ++ [.close sid]

theorem framesOf_send (c : Conn) (m : Sent) (sid : UInt32) : framesOf sid (send c m).out =
    framesOf sid c.out ++ (if c.closed = false ∧ about sid m = true then [m] else []) := by
  rcases send_out c m with ⟨h, e⟩ | ⟨h, k, e⟩
  · rw [e]; simp [h]
  · rw [e, framesOf, List.map_append, List.filter_append, h]
    cases hm : about sid m <;> simp [framesOf, hm]

structure FInv (c : Conn) : Prop where
  ok : ∀ sid, Bracket sid (framesOf sid c.out)
  fresh : ∀ sid, sid ∉ c.heap.map (·.id) → framesOf sid c.out = []
  waiting : ∀ (i : Nat) s, c.heap[i]? = some s → s.h = .waiting → c.pc ≠ .submitting i → framesOf s.id c.out = []
  running : c.closed = false → ∀ (i : Nat) s, c.heap[i]? = some s → (s.h = .running ∨ c.pc = .submitting i) →
    Begun s.id (framesOf s.id c.out)

theorem id_inj {c : Conn} (h : Ids c) (hn : c.heap.length < 2 ^ 32) {i j : Nat} {s t : Sess} (hs : c.heap[i]? = some s)
    (ht : c.heap[j]? = some t) (e : s.id = t.id) : i = j := by
  rw [h.id i s hs, h.id j t ht] at e
  have h1 := (List.getElem?_eq_some_iff.1 hs).1
  have h2 := (List.getElem?_eq_some_iff.1 ht).1
  have := ofNat_inj32 (by omega) (by omega) e
  omega

/-- The same frames; the sessions have the same identifiers and each handler that waits or runs did so before. -/
theorem FInv.keep {c c' : Conn} (h : FInv c) (ho : ∀ sid, framesOf sid c'.out = framesOf sid c.out)
    (hid : c'.heap.map (·.id) = c.heap.map (·.id)) (hc : c'.closed = false → c.closed = false)
    (hw : ∀ (i : Nat) s', c'.heap[i]? = some s' → ∃ s, c.heap[i]? = some s ∧ s'.id = s.id ∧
      (s'.h = .waiting → c'.pc ≠ .submitting i → s.h = .waiting ∧ c.pc ≠ .submitting i) ∧
      (s'.h = .running ∨ c'.pc = .submitting i → s.h = .running ∨ c.pc = .submitting i)) : FInv c' := by
  constructor
  · intro sid; rw [ho]; exact h.ok sid
  · intro sid hs; rw [ho]; rw [hid] at hs; exact h.fresh sid hs
  · intro i s' hs' h1 h2
    obtain ⟨s, hs, k1, k2, _⟩ := hw i s' hs'
    rw [ho, k1]
    exact h.waiting i s hs (k2 h1 h2).1 (k2 h1 h2).2
  · intro hcl i s' hs' h1
    obtain ⟨s, hs, k1, _, k3⟩ := hw i s' hs'
    rw [ho, k1]
    exact h.running (hc hcl) i s hs (k3 h1)

theorem set_cases {l : List Sess} {j : Nat} {t t' : Sess} (hj : l[j]? = some t) {i : Nat} {s' : Sess}
    (h : (l.set j t')[i]? = some s') : (i = j ∧ s' = t') ∨ (i ≠ j ∧ l[i]? = some s') := by
  by_cases hji : j = i
  · subst hji
    rw [List.getElem?_set_self (List.getElem?_eq_some_iff.1 hj).1] at h
    exact .inl ⟨rfl, (Option.some.inj h).symm⟩
  · rw [List.getElem?_set_ne hji] at h
    exact .inr ⟨fun e => hji e.symm, h⟩

theorem finv_step {c c' : Conn} {a : Act} (hinv : Inv c) (hids : Ids c) (hn : c'.heap.length < 2 ^ 32) (h : FInv c)
    (he : Effect c a c') : FInv c' := by
  have hpcok := hinv.pcok
  have hself : ∀ m, (send c m).heap = c.heap ∧ (send c m).pc = c.pc ∧ (send c m).closed = c.closed := by
    intro m; obtain ⟨o, e⟩ := send_frame c m; rw [e]; exact ⟨rfl, rfl, rfl⟩
  have hlen : c.heap.length ≤ c'.heap.length := by
    rcases effect_ids he with ⟨h1, _⟩ | ⟨o, pk, _, hd, rfl⟩
    · have := congrArg List.length h1; simp at this; omega
    · rw [(create_heap hd).1]; simp
  have hn' : c.heap.length < 2 ^ 32 := by omega
  cases he with
  | quiet hl ho hnx hpk hap hc hd hpc =>
    refine h.keep (by simp [ho]) (allLater_ids hl) (fun hf => ?_) ?_
    · cases hcl : c.closed with
      | false => rfl
      | true => rw [hc hcl] at hf; simp at hf
    · intro i s' hs'
      have hi : i < c.heap.length := by rw [← hl.1]; exact (List.getElem?_eq_some_iff.1 hs').1
      obtain ⟨k1, k2⟩ := hl.2 i c.heap[i] s' (by simp [hi]) hs'
      refine ⟨c.heap[i], by simp [hi], k1.sid, fun h1 h2 => ⟨k2.trans h1, ?_⟩, fun h1 => ?_⟩
      · rcases hpc with hpc | ⟨_, hpc, _⟩ | ⟨hpc, _⟩ | ⟨_, hpc⟩ | ⟨_, hpc, _⟩ | ⟨_, _, hpc, _⟩
        · rw [← hpc]; exact h2
        · exact hpc i
        · simp [hpc]
        · simp [hpc]
        · simp [hpc]
        · simp [hpc]
      · rcases h1 with h1 | h1
        · exact .inl (k2.trans h1)
        · right
          rcases hpc with hpc | ⟨hpc, _⟩ | ⟨_, _, hpc, _⟩ | ⟨hpc, _⟩ | ⟨_, _, hpc⟩ | ⟨_, _, _, hpc⟩
          · rw [← hpc]; exact h1
          · rw [h1] at hpc; simp at hpc
          · exact absurd h1 (hpc i)
          · rw [h1] at hpc; simp at hpc
          · rw [h1] at hpc; simp at hpc
          · rw [h1] at hpc; simp at hpc
  | @misc _ m gs pc hm hpc =>
    refine h.keep (fun sid => ?_) (by show (send c m).heap.map _ = _; rw [(hself m).1]) (fun hf => by
      have : (send c m).closed = false := hf
      rw [(hself m).2.2] at this; exact this) ?_
    · show framesOf sid (send c m).out = _
      rw [framesOf_send]
      rcases hm with ⟨o, rfl⟩ | ⟨n, rfl⟩ | ⟨n, rfl⟩ <;> simp [about]
    · intro i s' hs'
      replace hs' : (send c m).heap[i]? = some s' := hs'
      rw [(hself m).1] at hs'
      refine ⟨s', hs', rfl, fun h1 h2 => ⟨h1, ?_⟩, fun h1 => ?_⟩
      · rcases hpc with hpc | ⟨_, hpc, _⟩
        · rw [← hpc]; exact h2
        · exact hpc i
      · rcases h1 with h1 | h1
        · exact .inl h1
        · right
          replace h1 : pc = .submitting i := h1
          rcases hpc with hpc | ⟨hpc, _⟩
          · rw [← hpc]; exact h1
          · rw [h1] at hpc; simp at hpc
  | @create o pk hp hd =>
    obtain ⟨g1, _, g3, g4, g5, _⟩ := create_heap (c := c) (o := o) (pk := pk) hd
    have hnew : c.next ∉ c.heap.map (·.id) := by
      intro hm
      obtain ⟨s, hs, e⟩ := List.mem_map.1 hm
      obtain ⟨i, hi⟩ := List.getElem?_of_mem hs
      have hlt := (List.getElem?_eq_some_iff.1 hi).1
      rw [hids.id i s hi, hids.next] at e
      have hl' : (c.heap ++ [({ id := c.next } : Sess)]).length < 2 ^ 32 := by rw [← g1]; exact hn
      simp at hl'
      have := ofNat_inj32 (by omega) (by omega) e
      omega
    constructor
    · intro sid; rw [g4]; exact h.ok sid
    · intro sid hs
      rw [g4]; rw [g1, List.map_append] at hs
      exact h.fresh sid (fun hm => hs (by simp [hm]))
    · intro i s hs h1 h2
      rw [g4]
      rw [g1] at hs
      by_cases hlt : i < c.heap.length
      · rw [List.getElem?_append_left hlt] at hs
        exact h.waiting i s hs h1 (by simp [hp])
      · have hle : i < (c.heap ++ [({ id := c.next } : Sess)]).length := (List.getElem?_eq_some_iff.1 hs).1
        have : i = c.heap.length := by simp at hle; omega
        subst this
        simp at hs
        rw [← hs]
        exact h.fresh _ hnew
    · intro hc i s hs h1
      rw [g4]
      rw [g1] at hs
      rw [g3] at h1
      simp only [reduceCtorEq, or_false] at h1
      by_cases hlt : i < c.heap.length
      · rw [List.getElem?_append_left hlt] at hs
        exact h.running (g5 ▸ hc) i s hs (.inl h1)
      · have hle : i < (c.heap ++ [({ id := c.next } : Sess)]).length := (List.getElem?_eq_some_iff.1 hs).1
        have : i = c.heap.length := by simp at hle; omega
        subst this
        simp at hs
        rw [← hs] at h1
        simp at h1
  | @ack o i s hp hs =>
    unfold PcOk at hpcok
    rw [hp] at hpcok
    obtain ⟨s', h1, h2⟩ := hpcok
    rw [hs] at h1
    cases h1
    have hempty := h.waiting i s hs h2 (by simp [hp])
    have hother : ∀ sid, sid ≠ s.id → framesOf sid (send c (.ack o s.id true c.packing)).out = framesOf sid c.out := by
      intro sid hne
      rw [framesOf_send]
      simp [about, Ne.symm hne]
    have hthis : framesOf s.id (send c (.ack o s.id true c.packing)).out =
        if c.closed = false then [.ack o s.id true c.packing] else [] := by
      rw [framesOf_send, hempty]; simp [about]
    constructor
    · intro sid
      show Bracket sid (framesOf sid (send c _).out)
      by_cases hsid : sid = s.id
      · subst hsid
        rw [hthis]
        split
        · exact .inr (.inl ⟨o, c.packing, [], rfl, by simp⟩)
        · exact .inl rfl
      · rw [hother sid hsid]; exact h.ok sid
    · intro sid hsid
      show framesOf sid (send c _).out = _
      replace hsid : sid ∉ (send c (.ack o s.id true c.packing)).heap.map (·.id) := hsid
      rw [(hself _).1] at hsid
      rw [hother sid (fun e => hsid (e ▸ List.mem_map.2 ⟨s, List.mem_of_getElem? hs, rfl⟩))]
      exact h.fresh sid hsid
    · intro j t ht h3 h4
      replace ht : (send c (.ack o s.id true c.packing)).heap[j]? = some t := ht
      rw [(hself _).1] at ht
      show framesOf t.id (send c _).out = _
      have hne : j ≠ i := fun e => h4 (by rw [e])
      rw [hother t.id (fun e => hne (id_inj hids hn' ht hs e))]
      exact h.waiting j t ht h3 (by simp [hp])
    · intro hc j t ht h3
      replace ht : (send c (.ack o s.id true c.packing)).heap[j]? = some t := ht
      rw [(hself _).1] at ht
      replace hc : (send c (.ack o s.id true c.packing)).closed = false := hc
      rw [(hself _).2.2] at hc
      show Begun t.id (framesOf t.id (send c _).out)
      by_cases hj : j = i
      · subst hj
        rw [hs] at ht
        cases ht
        rw [hthis, if_pos hc]
        exact ⟨o, c.packing, [], rfl, by simp⟩
      · rw [hother t.id (fun e => hj (id_inj hids hn' ht hs e))]
        refine h.running hc j t ht (.inl ?_)
        rcases h3 with h3 | h3
        · exact h3
        · simp only [RPc.submitting.injEq] at h3
          exact absurd h3.symm hj
  | @start i s hp hs =>
    refine h.keep (fun _ => rfl) (set_ids hs rfl) id ?_
    intro j t ht
    rcases set_cases hs ht with ⟨rfl, rfl⟩ | ⟨hne, ht⟩
    · exact ⟨s, hs, rfl, by simp, fun _ => .inr hp⟩
    · exact ⟨t, ht, rfl, fun h1 _ => ⟨h1, by rw [hp]; simp; exact fun e => hne e.symm⟩, by simp; exact .inl⟩
  | @push i s p hp hs hr =>
    refine h.keep (fun _ => rfl) (set_ids hs rfl) id ?_
    intro j t ht
    rcases set_cases hs ht with ⟨rfl, rfl⟩ | ⟨hne, ht⟩
    · exact ⟨s, hs, rfl, fun h1 _ => ⟨h1, by rw [hp]; simp⟩, by simp; exact .inl⟩
    · exact ⟨t, ht, rfl, fun h1 _ => ⟨h1, by rw [hp]; simp⟩, by simp; exact .inl⟩
  | @reply i s p hs hh =>
    have hother : ∀ sid, sid ≠ s.id → framesOf sid (send c (.payload s.id p)).out = framesOf sid c.out := by
      intro sid hne
      rw [framesOf_send]
      simp [about, Ne.symm hne]
    have hbeg : Begun s.id (framesOf s.id (send c (.payload s.id p)).out) ∨ (c.closed = true ∧
        framesOf s.id (send c (.payload s.id p)).out = framesOf s.id c.out) := by
      rw [framesOf_send]
      cases hc : c.closed with
      | true => exact .inr ⟨rfl, by simp⟩
      | false =>
        left
        obtain ⟨o, pk, ps, e, hps⟩ := h.running hc i s hs (.inl hh)
        rw [e]
        refine ⟨o, pk, ps ++ [.payload s.id p], by simp [about], ?_⟩
        intro m hm
        simp at hm
        rcases hm with hm | rfl
        · exact hps m hm
        · exact ⟨p, rfl⟩
    constructor
    · intro sid
      by_cases hsid : sid = s.id
      · subst hsid
        rcases hbeg with hb | ⟨_, hb⟩
        · exact .inr (.inl hb)
        · rw [hb]; exact h.ok _
      · rw [hother sid hsid]; exact h.ok sid
    · intro sid hsid
      rw [(hself _).1] at hsid
      rw [hother sid (fun e => hsid (e ▸ List.mem_map.2 ⟨s, List.mem_of_getElem? hs, rfl⟩))]
      exact h.fresh sid hsid
    · intro j t ht h3 h4
      rw [(hself _).1] at ht
      rw [(hself _).2.1] at h4
      have hne : j ≠ i := by
        intro e
        subst e
        rw [hs] at ht
        cases ht
        rw [hh] at h3
        simp at h3
      rw [hother t.id (fun e => hne (id_inj hids hn' ht hs e))]
      exact h.waiting j t ht h3 h4
    · intro hc j t ht h3
      rw [(hself _).1] at ht
      rw [(hself _).2.2] at hc
      rw [(hself _).2.1] at h3
      by_cases hj : j = i
      · subst hj
        rw [hs] at ht
        cases ht
        rcases hbeg with hb | ⟨hb, _⟩
        · exact hb
        · rw [hb] at hc; simp at hc
      · rw [hother t.id (fun e => hj (id_inj hids hn' ht hs e))]
        exact h.running hc j t ht h3
  | @ended i s hs hh =>
    have hother : ∀ sid, sid ≠ s.id → framesOf sid (send c (.close s.id)).out = framesOf sid c.out := by
      intro sid hne
      rw [framesOf_send]
      simp [about, Ne.symm hne]
    have hbr : Bracket s.id (framesOf s.id (send c (.close s.id)).out) := by
      rw [framesOf_send]
      cases hc : c.closed with
      | true => simp; exact h.ok _
      | false =>
        have := h.running hc i s hs (.inl hh)
        exact .inr (.inr ⟨_, this, by simp [about]⟩)
    constructor
    · intro sid
      show Bracket sid (framesOf sid (send c _).out)
      by_cases hsid : sid = s.id
      · subst hsid; exact hbr
      · rw [hother sid hsid]; exact h.ok sid
    · intro sid hsid
      show framesOf sid (send c _).out = _
      replace hsid : sid ∉ (c.heap.set i { s with h := .returned }).map (·.id) := hsid
      rw [set_ids (s' := { s with h := .returned }) hs rfl] at hsid
      rw [hother sid (fun e => hsid (e ▸ List.mem_map.2 ⟨s, List.mem_of_getElem? hs, rfl⟩))]
      exact h.fresh sid hsid
    · intro j t ht h3 h4
      show framesOf t.id (send c _).out = _
      replace h4 : (send c (.close s.id)).pc ≠ .submitting j := h4
      rw [(hself _).2.1] at h4
      rcases set_cases hs ht with ⟨rfl, rfl⟩ | ⟨hne, ht⟩
      · simp at h3
      · rw [hother t.id (fun e => hne (id_inj hids hn' ht hs e))]
        exact h.waiting j t ht h3 h4
    · intro hc j t ht h3
      show Begun t.id (framesOf t.id (send c _).out)
      replace hc : (send c (.close s.id)).closed = false := hc
      rw [(hself _).2.2] at hc
      replace h3 : t.h = .running ∨ (send c (.close s.id)).pc = .submitting j := h3
      rw [(hself _).2.1] at h3
      rcases set_cases hs ht with ⟨rfl, rfl⟩ | ⟨hne, ht⟩
      · rcases h3 with h3 | h3
        · simp at h3
        · unfold PcOk at hpcok
          rw [h3] at hpcok
          obtain ⟨s', k1, k2⟩ := hpcok
          rw [hs] at k1
          cases k1
          rw [hh] at k2
          simp at k2
      · rw [hother t.id (fun e => hne (id_inj hids hn' ht hs e))]
        exact h.running hc j t ht h3
  | @unwind i s s' m wg hs hl hh =>
    have hnw : s'.h ≠ .waiting ∧ s'.h ≠ .running := by
      rcases hh with ⟨_, e, _⟩ | ⟨_, e, _⟩ | ⟨_, e, _⟩ <;> simp [e]
    refine h.keep (fun _ => rfl) (set_ids hs hl.sid) id ?_
    intro j t ht
    rcases set_cases hs ht with ⟨rfl, rfl⟩ | ⟨hne, ht⟩
    · exact ⟨s, hs, hl.sid, fun h1 => absurd h1 hnw.1, fun h1 => h1.elim (fun h1 => absurd h1 hnw.2) .inr⟩
    · exact ⟨t, ht, rfl, fun h1 h2 => ⟨h1, h2⟩, id⟩

/-- **C55** For every session (of the first 2^32) the frames the server writes are: nothing yet, or its OpenAck,
then payloads, then at most one Close; nothing of the session comes before the OpenAck or after the Close. -/
theorem C55_frames_bracketed {as : List Act} {b : Bool} {n : Nat} {c : Conn} (h : run as { allowPacking := b, maxRPC := n } = some c)
    (hn : c.heap.length < 2 ^ 32) (sid : UInt32) : Bracket sid (framesOf sid c.out) := by
  have key := reach_induction (fun _ c => Ids c ∧ (c.heap.length < 2 ^ 32 → FInv c)) (b := b) (n := n)
    ⟨⟨by simp, rfl⟩, fun _ => ⟨fun _ => .inl rfl, fun _ _ => rfl, by simp, by simp⟩⟩
    (fun as c a c' hi hp e => by
      have he := step_effect hi e
      refine ⟨ids_step hp.1 he, fun hn => finv_step hi hp.1 hn (hp.2 ?_) he⟩
      rcases effect_ids he with ⟨h1, _⟩ | ⟨o, pk, _, hd, rfl⟩
      · have := congrArg List.length h1; simp at this; omega
      · rw [(create_heap hd).1] at hn; simp at hn; omega) h
  exact (key.2 hn).ok sid

/-- A session that answers two payloads and ends. -/
def answers : List Act :=
  [.read (.open 7 true true false), .tick, .tick, .tick, .read (.payload 1 ⟨0, [1]⟩ false), .tick, .recv 0,
   .reply 0 ⟨0, [5]⟩, .reply 0 ⟨1, [6]⟩, .ret 0, .read (.payload 1 ⟨2, [1]⟩ false), .tick, .ret 0]

example : ∃ c, run answers {} = some c ∧ framesOf 1 c.out =
    [.ack 7 1 true false, .payload 1 ⟨0, [5]⟩, .payload 1 ⟨1, [6]⟩, .close 1] := ⟨_, rfl, by decide⟩

end Claw.SrvConn
