import Verif.Lemmas.Limits

/-!
# C145 Messages over a size limit are rejected, and only those

A message over the limit of its sender is refused with ErrMessageTooLarge and not sent; one over the limit of its receiver is rejected with that
error. All other messages get through. An end keeps to the size that the other end says it accepts.
-/

namespace Claw.Limits

open Claw

theorem id_unique {l : List (Nat × Bytes)} (h : (l.map (·.1)).Nodup) {i : Nat} {p q : Bytes} (hp : (i, p) ∈ l) (hq : (i, q) ∈ l) : p = q := by
  induction l with
  | nil => cases hp
  | cons x l ih =>
    rw [List.map_cons, List.nodup_cons] at h
    rcases List.mem_cons.1 hp with hp | hp <;> rcases List.mem_cons.1 hq with hq | hq
    · rw [← hp] at hq; injection hq with _ hq; exact hq.symm
    · exact absurd (List.mem_map.2 ⟨_, hq, by rw [← hp]⟩) h.1
    · exact absurd (List.mem_map.2 ⟨_, hp, by rw [← hq]⟩) h.1
    · exact ih h.2 hp hq

theorem ran_asked {c s : End} {w : World} {A1 A2 G1 G2 : List (Nat × Bytes)} (h : Good c s w A1 A2 G1 G2) {i : Nat} {p : Bytes}
    {r : Except ErrCode.Err Bytes} (hm : (i, p, r) ∈ w.ran) : (i, p) ∈ w.asked ∧ ¬ Over s.recv p.length := by
  have h1 : (i, p) ∈ w.ran.map (fun x => (x.1, x.2.1)) ++ w.inbox := List.mem_append_left _ (List.mem_map.2 ⟨_, hm, rfl⟩)
  obtain ⟨h2, h3⟩ := List.mem_filter.1 (h.ran.subset h1)
  refine ⟨by rw [h.asked]; exact List.mem_append_left _ h2, ?_⟩
  intro ho
  simp [fits, ho] at h3

theorem got_ran {c s : End} {w : World} {A1 A2 G1 G2 : List (Nat × Bytes)} (h : Good c s w A1 A2 G1 G2) {i : Nat} {d : Bytes}
    (hm : (i, d) ∈ w.got) : (∃ p, (i, p, Except.ok d) ∈ w.ran) ∧ ¬ Over s.send d.length ∧ ¬ Over c.recv d.length := by
  rw [h.got] at hm
  obtain ⟨h1, h2⟩ := List.mem_filter.1 hm
  have h3 : (i, d) ∈ w.ran.filterMap (replyOf s) := by rw [h.replies]; exact List.mem_append_left _ h1
  obtain ⟨h4, h5⟩ := replies_sent h3
  obtain ⟨f, hf, _⟩ := dnOf_of h4
  refine ⟨h5, (sendMsg_frame hf).1, ?_⟩
  intro ho
  simp [fits, ho] at h2

/-- The limits of the senders: a call whose request is over the limit of the client is refused at once, with nothing sent, and no other call
is; the handler never runs on a request that was refused. -/
theorem C145_refused (c s : End) (ha : Agreed c s) (as : List Act) (w : World) (h : run c s as {} = some w) :
    (∀ i p, (i, p) ∈ w.refused → Over c.send p.length ∧ ∀ q r, (i, q, r) ∉ w.ran) ∧
    (w.ended = none → ∀ p, ∃ w', step c s w (.call p) = some w' ∧
      (Over c.send p.length → w'.refused = w.refused ++ [(w.next, p)] ∧ w'.up = w.up) ∧
      (¬ Over c.send p.length → w'.refused = w.refused)) := by
  obtain ⟨A1, A2, G1, G2, hg⟩ := good_run ha as (good_init c s) h
  refine ⟨fun i p hp => ⟨hg.refused _ hp, fun q r hr => ?_⟩, fun h0 p => ?_⟩
  · have h1 := (ran_asked hg hr).1
    have := hg.ord
    rw [List.map_append, List.nodup_append] at this
    exact this.2.2 i (List.mem_map.2 ⟨_, h1, rfl⟩) i (List.mem_map.2 ⟨_, hp, rfl⟩) rfl
  · simp only [step, h0, Option.isSome_none, Bool.false_eq_true, if_false]
    cases hs : c.sendMsg p false with
    | tooLarge =>
      have := (sendMsg_tooLarge c p false).1 hs
      exact ⟨_, rfl, fun _ => ⟨rfl, rfl⟩, fun hn => absurd this hn⟩
    | compression =>
      exact ⟨_, rfl, fun ho => (by rw [(sendMsg_tooLarge c p false).2 ho] at hs; cases hs), fun _ => rfl⟩
    | frame f => exact ⟨_, rfl, fun ho => absurd ho (sendMsg_frame hs).1, fun _ => rfl⟩

/-- No message over a limit is delivered, and what is delivered is what was sent: the handler runs on requests as they were made, within
the limits of both ends, and a call gets what the handler gave for it, within the limits of both ends. -/
theorem C145_kept (c s : End) (ha : Agreed c s) (as : List Act) (w : World) (h : run c s as {} = some w) :
    (∀ i p r, (i, p, r) ∈ w.ran → (i, p) ∈ w.asked ∧ ¬ Over c.send p.length ∧ ¬ Over s.recv p.length) ∧
    (∀ i d, (i, d) ∈ w.got → ∃ p, (i, p) ∈ w.asked ∧ (i, p, Except.ok d) ∈ w.ran ∧ ¬ Over s.send d.length ∧ ¬ Over c.recv d.length) := by
  obtain ⟨A1, A2, G1, G2, hg⟩ := good_run ha as (good_init c s) h
  constructor
  · intro i p r hr
    obtain ⟨h1, h2⟩ := ran_asked hg hr
    obtain ⟨f, hf, _⟩ := upOf_of (hg.sent _ h1)
    exact ⟨h1, (sendMsg_frame hf).1, h2⟩
  · intro i d hd
    obtain ⟨⟨p, hp⟩, h2, h3⟩ := got_ran hg hd
    exact ⟨p, (ran_asked hg hp).1, hp, h2, h3⟩

/-- When each receiver takes what the other end may send, as with the limits that are the default: once nothing is on its way, all requests
that were sent have their replies, in order, or the server has ended the session because of what the handler gave last.
Partial: without this condition on the limits calls are left without an answer (`C145_request_dropped`, `C145_reply_dropped`). -/
theorem C145_answered_partial (c s : End) (ha : Agreed c s) (hup : Covers s.recv c.send) (hdn : Covers c.recv s.send) (as : List Act) (w : World)
    (h : run c s as {} = some w) (hq : Quiet w) :
    (w.ended = none → w.got.map (·.1) = w.asked.map (·.1)) ∧
    (∀ k, w.ended = some k → ∃ l i p r, w.ran = l ++ [(i, p, r)] ∧ w.got.map (·.1) = l.map (·.1) ∧ k = codeOf s r ∧
      ∀ d, r = .ok d → Over s.send d.length ∨ s.sendMsg d false = .compression) := by
  obtain ⟨A1, A2, G1, G2, hg⟩ := good_run ha as (good_init c s) h
  obtain ⟨q1, q2, q3⟩ := hq
  have hA2 : A2 = [] := by
    cases A2 with
    | nil => rfl
    | cons x A2 =>
      obtain ⟨f, _, hx⟩ := upOf_of (hg.sent x (by rw [hg.asked]; simp))
      have := hg.up
      rw [q1, List.filterMap_cons, hx] at this
      cases this
  subst hA2
  have hG2 : G2 = [] := by
    cases G2 with
    | nil => rfl
    | cons x G2 =>
      have hm : x ∈ w.ran.filterMap (replyOf s) := by rw [hg.replies]; simp
      obtain ⟨f, _, hx⟩ := dnOf_of (replies_sent hm).1
      cases hc : w.closed with
      | none =>
        have := (hg.open_ hc).2.2
        rw [q3, List.filterMap_cons, hx] at this
        cases this
      | some k =>
        rcases (hg.shut k hc).2 with ⟨_, h2⟩ | ⟨_, _, h3⟩
        · rw [q3, List.filterMap_cons, hx] at h2
          cases h2
        · cases h3
  subst hG2
  have hasked : w.asked = A1 := by rw [hg.asked, List.append_nil]
  have hrep : w.ran.filterMap (replyOf s) = G1 := by rw [hg.replies, List.append_nil]
  have hgot : w.got = G1 := by
    rw [hg.got, List.filter_eq_self]
    intro x hx
    have hm : x ∈ w.ran.filterMap (replyOf s) := by rw [hrep]; exact hx
    obtain ⟨f, hf, _⟩ := dnOf_of (replies_sent hm).1
    have : ¬ Over c.recv x.2.length := fun ho => (sendMsg_frame hf).1 (hdn _ ho)
    simp [fits, this]
  have hfit : A1.filter (fits s.recv) = A1 := by
    rw [List.filter_eq_self]
    intro x hx
    obtain ⟨f, hf, _⟩ := upOf_of (hg.sent x (by rw [hasked]; exact hx))
    have : ¬ Over s.recv x.2.length := fun ho => (sendMsg_frame hf).1 (hup _ ho)
    simp [fits, this]
  have hmap : ∀ l : List (Nat × Bytes × Except ErrCode.Err Bytes), (∀ y ∈ l, fine s y = true) →
      (l.filterMap (replyOf s)).map (·.1) = l.map (·.1) := by
    intro l hl
    induction l with
    | nil => rfl
    | cons y l ih =>
      obtain ⟨i, p, r⟩ := y
      have hf := hl _ List.mem_cons_self
      cases r with
      | error e => cases hf
      | ok d =>
        have : replyOf s (i, p, Except.ok d) = some (i, d) := by simp only [fine] at hf; simp [replyOf, hf]
        rw [List.filterMap_cons, this, List.map_cons, List.map_cons, ih fun y hy => hl y (List.mem_cons_of_mem _ hy)]
  constructor
  · intro h0
    have hc : w.closed = none := by
      cases hc : w.closed with
      | none => rfl
      | some k =>
        rcases (hg.shut k hc).2 with ⟨_, h2⟩ | ⟨h2, _⟩
        · rw [q3] at h2; cases h2
        · rw [h0] at h2; cases h2
    have h1 := hg.ranAll hc
    rw [q2, List.append_nil, hfit] at h1
    rw [hgot, ← hrep, hmap _ (hg.open_ hc).1, hasked, ← h1]
    simp
  · intro k hk
    cases hc : w.closed with
    | none => rw [(hg.open_ hc).2.1] at hk; cases hk
    | some k' =>
      obtain ⟨⟨l, x, h1, h2, h3, h4⟩, h5⟩ := hg.shut k' hc
      have hkk : k' = k := by
        rcases h5 with ⟨h6, _⟩ | ⟨h6, _⟩
        · rw [h6] at hk; cases hk
        · rw [h6] at hk; injection hk
      subst hkk
      obtain ⟨i, p, r⟩ := x
      refine ⟨l, i, p, r, h1, ?_, h4, ?_⟩
      · have hnone : replyOf s (i, p, r) = none := by
          cases r with
          | error e => rfl
          | ok d => simp only [fine] at h3; simp [replyOf, h3]
        rw [hgot, ← hrep, h1, List.filterMap_append, ← hmap l h2]
        simp [hnone]
      · rintro d rfl
        simp only [fine] at h3
        cases hs : s.sendMsg d false with
        | tooLarge => exact .inl ((sendMsg_tooLarge s d false).1 hs)
        | compression => exact .inr rfl
        | frame f => rw [hs] at h3; cases h3

/-- Violated: a request over the limit of the server, though not over that of the client, is never answered, and the handler never runs on
it. -/
theorem C145_request_dropped (c s : End) (ha : Agreed c s) (as : List Act) (w : World) (h : run c s as {} = some w) (i : Nat) (p : Bytes)
    (hp : (i, p) ∈ w.asked) (ho : Over s.recv p.length) : (∀ q r, (i, q, r) ∉ w.ran) ∧ ∀ d, (i, d) ∉ w.got := by
  obtain ⟨A1, A2, G1, G2, hg⟩ := good_run ha as (good_init c s) h
  have hu : (w.asked.map (·.1)).Nodup := by
    have := hg.ord
    rw [List.map_append, List.nodup_append] at this
    exact this.1
  have h1 : ∀ q r, (i, q, r) ∉ w.ran := by
    intro q r hr
    obtain ⟨h1, h2⟩ := ran_asked hg hr
    exact h2 (id_unique hu hp h1 ▸ ho)
  exact ⟨h1, fun d hd => by obtain ⟨⟨q, hq⟩, _⟩ := got_ran hg hd; exact h1 _ _ hq⟩

/-- Nor is there an error: a call with such a request waits in a session that stays open, with nothing on its way. -/
theorem C145_request_no_error (c s : End) (ha : Agreed c s) (p : Bytes) (hs : isFrame (c.sendMsg p false) = true) (ho : Over s.recv p.length) :
    ∃ w, run c s [.call p, .arrive] {} = some w ∧ w.asked = [(0, p)] ∧ Quiet w ∧ w.got = [] ∧ w.closed = none ∧ w.ended = none := by
  obtain ⟨f, hf, _⟩ := upOf_of (x := (0, p)) hs
  have hr := recv_sent ha.up hf
  rw [if_pos ho] at hr
  simp only at hf
  simp [run, step, hf, hr, Quiet]

/-- Violated: a reply over the limit of the client, though not over that of the server, never reaches the call. -/
theorem C145_reply_dropped (c s : End) (ha : Agreed c s) (as : List Act) (w : World) (h : run c s as {} = some w) (i : Nat) (p d : Bytes)
    (hr : (i, p, Except.ok d) ∈ w.ran) (ho : Over c.recv d.length) : ∀ d', (i, d') ∉ w.got := by
  obtain ⟨A1, A2, G1, G2, hg⟩ := good_run ha as (good_init c s) h
  intro d' hd
  obtain ⟨⟨q, hq⟩, _, h3⟩ := got_ran hg hd
  have hu : (w.ran.map (·.1)).Nodup := by
    have h1 : (w.ran.map (fun x => (x.1, x.2.1)) ++ w.inbox).Sublist w.asked :=
      hg.ran.sublist.trans ((List.filter_sublist).trans (by rw [hg.asked]; exact List.sublist_append_left _ _))
    have h2 := hg.ord
    rw [List.map_append, List.nodup_append] at h2
    have h3 := (h1.map (·.1)).nodup h2.1
    rw [List.map_append, List.nodup_append, List.map_map] at h3
    exact h3.1
  have : ((p, .ok d) : Bytes × Except ErrCode.Err Bytes) = (q, .ok d') := by
    have key : ∀ (l : List (Nat × Bytes × Except ErrCode.Err Bytes)), (l.map (·.1)).Nodup → ∀ x y, (i, x) ∈ l → (i, y) ∈ l → x = y := by
      intro l hl x y hx hy
      induction l with
      | nil => cases hx
      | cons z l ih =>
        rw [List.map_cons, List.nodup_cons] at hl
        rcases List.mem_cons.1 hx with hx | hx <;> rcases List.mem_cons.1 hy with hy | hy
        · rw [← hx] at hy; injection hy with _ hy; exact hy.symm
        · exact absurd (List.mem_map.2 ⟨_, hy, by rw [← hx]⟩) hl.1
        · exact absurd (List.mem_map.2 ⟨_, hx, by rw [← hy]⟩) hl.1
        · exact ih hl.2 hx hy
    exact key _ hu _ _ hr hq
  injection this with _ this
  injection this with this
  exact h3 (this ▸ ho)

/-- Nor is there an error: the handler has run, and the call waits in a session that stays open, with nothing on its way. -/
theorem C145_reply_no_error (c s : End) (ha : Agreed c s) (p d : Bytes) (hs : isFrame (c.sendMsg p false) = true) (hp : ¬ Over s.recv p.length)
    (hd : isFrame (s.sendMsg d false) = true) (ho : Over c.recv d.length) :
    ∃ w, run c s [.call p, .arrive, .serve (.ok d), .back] {} = some w ∧ w.asked = [(0, p)] ∧ w.ran.map (fun x => (x.1, x.2.1)) = [(0, p)] ∧
      Quiet w ∧ w.got = [] ∧ w.closed = none ∧ w.ended = none := by
  obtain ⟨f, hf, _⟩ := upOf_of (x := (0, p)) hs
  obtain ⟨g, hg, _⟩ := dnOf_of (x := (0, d)) hd
  have hr := recv_sent ha.up hf
  have hb := recv_sent ha.down hg
  rw [if_neg hp] at hr
  rw [if_pos ho] at hb
  simp only at hf hg
  simp [run, step, hf, hr, hg, hb, Quiet]

theorem closed_step {c s : End} {w w' : World} {k : UInt16} (hc : w.closed = some k) {a : Act} (e : step c s w a = some w') :
    w'.closed = some k ∧ w'.ran = w.ran := by
  cases a with
  | call req =>
    simp only [step] at e
    split at e
    · injection e with e; subst e; exact ⟨hc, rfl⟩
    · split at e <;> (injection e with e; subst e; exact ⟨hc, rfl⟩)
  | arrive =>
    simp only [step, hc] at e
    split at e
    · cases e
    · simp only [Option.isSome_some, if_true] at e
      injection e with e; subst e; exact ⟨rfl, rfl⟩
  | serve r => simp [step, hc] at e
  | back =>
    simp only [step] at e
    split at e
    · cases e
    · injection e with e; subst e; exact ⟨hc, rfl⟩
    · split at e <;> (injection e with e; subst e; exact ⟨hc, rfl⟩)

theorem closed_run {c s : End} {k : UInt16} (as : List Act) {w w' : World} (hc : w.closed = some k) (e : run c s as w = some w') :
    w'.closed = some k ∧ w'.ran = w.ran := by
  induction as generalizing w with
  | nil => injection e with e; subst e; exact ⟨hc, rfl⟩
  | cons a as ih =>
    simp only [run] at e
    cases hs : step c s w a with
    | none => rw [hs] at e; cases e
    | some v =>
      rw [hs] at e
      obtain ⟨h1, h2⟩ := closed_step hc hs
      obtain ⟨h3, h4⟩ := ih h1 e
      exact ⟨h3, h4.trans h2⟩

theorem run_append {c s : End} (as bs : List Act) {w w' w'' : World} (h : run c s as w = some w') (h' : run c s bs w' = some w'') :
    run c s (as ++ bs) w = some w'' := by
  induction as generalizing w with
  | nil => injection h with h; subst h; exact h'
  | cons a as ih =>
    simp only [run, List.cons_append] at h ⊢
    cases hs : step c s w a with
    | none => rw [hs] at h; cases h
    | some v => rw [hs] at h; exact ih h

/-- A reply over the limit of the server: the server ends the session with ResourceExhausted, and with it all the other calls on the
session: no call on which the handler had not run by then gets an answer, ever. -/
theorem C145_reply_ends_session (c s : End) (ha : Agreed c s) (as bs : List Act) (w w1 w2 : World) (h : run c s as {} = some w) (d : Bytes)
    (ho : Over s.send d.length) (h1 : step c s w (.serve (.ok d)) = some w1) (h2 : run c s bs w1 = some w2) :
    w1.closed = some 8 ∧ ∀ i x, (i, x) ∈ w2.got → ∃ p, (i, p, Except.ok x) ∈ w.ran := by
  have hs := (sendMsg_tooLarge s d false).2 ho
  have hcl : w1.closed = some 8 ∧ ∃ i p, w1.ran = w.ran ++ [(i, p, .ok d)] := by
    simp only [step] at h1
    split at h1
    · cases h1
    · split at h1
      · cases h1
      · rw [hs] at h1
        injection h1 with h1
        subst h1
        exact ⟨rfl, _, _, rfl⟩
  refine ⟨hcl.1, fun i x hx => ?_⟩
  have hr1 : run c s [.serve (.ok d)] w = some w1 := by simp only [run, h1]; rfl
  obtain ⟨A1, A2, G1, G2, hg⟩ := good_run ha _ (good_init c s) (run_append _ _ (run_append _ _ h hr1) h2)
  obtain ⟨⟨p, hp⟩, h3, _⟩ := got_ran hg hx
  rw [(closed_run bs hcl.1 h2).2] at hp
  obtain ⟨j, q, hj⟩ := hcl.2
  rw [hj] at hp
  rcases List.mem_append.1 hp with hp | hp
  · exact ⟨p, hp⟩
  · rw [List.mem_singleton] at hp
    injection hp with _ hp
    injection hp with _ hp
    injection hp with hp
    exact absurd (hp ▸ ho) h3

/-- On a stream: whoever reads gets the messages that are within the limits of both ends, in order; those over the limit of the receiver are
left out. -/
theorem C145_stream (e r : End) (ha : Compress.Agree e.reg r.reg e.alg) (ms : List Bytes) (hz : ∀ p ∈ ms, e.sendMsg p false ≠ .compression) :
    recvAll r (sendAll e ms) = ms.filter fun p => !decide (Over e.send p.length) && !decide (Over r.recv p.length) := by
  induction ms with
  | nil => rfl
  | cons p ms ih =>
    have ih := ih fun q hq => hz q (List.mem_cons_of_mem _ hq)
    rw [List.filter_cons]
    cases hs : e.sendMsg p false with
    | compression => exact absurd hs (hz p List.mem_cons_self)
    | tooLarge =>
      have := (sendMsg_tooLarge e p false).1 hs
      simp only [sendAll, hs, this, decide_true, Bool.not_true, Bool.false_and, Bool.false_eq_true, if_false]
      exact ih
    | frame f =>
      simp only [sendAll, hs, recvAll, recv_sent ha hs, (sendMsg_frame hs).1, decide_false, Bool.not_false, Bool.true_and]
      by_cases ho : Over r.recv p.length
      · simp only [if_pos ho, ho, decide_true, Bool.not_true, Bool.false_eq_true, if_false]
        exact ih
      · rw [if_neg ho]
        simp only [ho, decide_false, Bool.not_false, if_true]
        rw [ih]

/-- Violated for streams, too: whoever reads gets all the messages that were sent exactly when none of them is over a limit. (That no
error is reported when some are left out: `C119_no_error` for the server; the client learns of nothing either.) -/
theorem C145_stream_whole (e r : End) (ha : Compress.Agree e.reg r.reg e.alg) (ms : List Bytes) (hz : ∀ p ∈ ms, e.sendMsg p false ≠ .compression) :
    recvAll r (sendAll e ms) = ms ↔ ∀ p ∈ ms, ¬ Over e.send p.length ∧ ¬ Over r.recv p.length := by
  rw [C145_stream e r ha ms hz, List.filter_eq_self]
  constructor
  · intro h p hp
    have := h p hp
    simpa using this
  · intro h p hp
    simpa using h p hp

/-- Violated: what an end says that it accepts changes nothing: the client announces a size and the session goes on as with any other; the
server announces zero, whatever its limit. -/
theorem C145_told_ignored (c s : End) (t : UInt32) (as : List Act) (w : World) :
    openSays { c with told := t } = t ∧ run { c with told := t } s as w = run c s as w ∧ ackSays s = 0 := by
  refine ⟨rfl, ?_, rfl⟩
  induction as generalizing w with
  | nil => rfl
  | cons a as ih =>
    have : step { c with told := t } s w a = step c s w a := by cases a <;> rfl
    simp only [run, this]
    cases step c s w a with
    | none => rfl
    | some v => exact ih v

/-! ## The hypotheses can be met -/

/-- Limits of two and three bytes at the client, three and two at the server. -/
def c0 : End := { send := 2, recv := 3 }
def s0 : End := { send := 3, recv := 2 }

theorem agreed0 : Agreed c0 s0 := ⟨fun h => absurd rfl h, fun h => absurd rfl h⟩

theorem covers0 : Covers s0.recv c0.send ∧ Covers c0.recv s0.send := ⟨fun _ h => h, fun _ h => h⟩

/-- The default limits of both ends cover each other. -/
example : Covers ({} : End).recv ({} : End).send := fun _ h => h

example : (run c0 s0 [.call [1, 2], .call [1, 2, 3], .arrive, .call [5], .serve (.ok [7, 8, 9]), .arrive, .serve (.ok []), .back, .back] {}).map
    (fun w => (w.got, w.refused)) = some ([(0, [7, 8, 9]), (2, [])], [(1, [1, 2, 3])]) := by decide +kernel

example : (run c0 s0 [.call [1, 2], .arrive, .call [5], .serve (.ok [7, 8, 9]), .arrive, .serve (.ok []), .back, .back] {}).map
    (fun w => (w.up.length, w.inbox.length, w.down.length, w.ended)) = some (0, 0, 0, none) := by decide +kernel

/-- A reply of four bytes: both calls end. -/
example : (run c0 s0 [.call [1], .call [2], .arrive, .arrive, .serve (.ok [1, 2, 3, 4]), .back] {}).map
    (fun w => (w.got, w.inbox, w.closed, w.ended)) = some ([], [(1, [2])], some 8, some 8) := by decide +kernel

/-- The server takes less than the client may send: the call is left alone; a handler error ends the session. -/
example : (run { send := 9 } s0 [.call [1, 2, 3], .arrive, .call [4], .arrive, .serve (.error .deadline), .back] {}).map
    (fun w => (w.asked, w.ran.map (·.1), w.got.length)) = some ([(0, [1, 2, 3]), (1, [4])], [1], 0) := by decide +kernel

/-- A gap in a stream. -/
example : recvAll s0 (sendAll { send := 9 } [[1], [1, 2, 3], [2]]) = [[1], [2]] := by decide +kernel

end Claw.Limits
