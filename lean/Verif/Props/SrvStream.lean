import Verif.Model.SrvStream
import Verif.Props.Chain

/-!
# C119–C121: the streams of a server's handlers
-/

namespace Claw.SrvStream

open Claw

/-! ### C119: what a handler receives -/

/-- The messages of a stream: the data of the payloads up to the one that ends it, which counts if it has data. -/
def messages : List Pl → List Bytes
  | [] => []
  | p :: ps => if p.fin then (if p.data = [] then [] else [p.data]) else p.data :: messages ps

/-- The end of the stream is among the payloads. -/
def Ended (ps : List Pl) : Prop := ∃ p ∈ ps, p.fin = true

theorem messages_append_ended {ps qs : List Pl} (h : Ended ps) : messages (ps ++ qs) = messages ps := by
  induction ps with
  | nil => obtain ⟨p, hp, _⟩ := h; cases hp
  | cons p ps ih =>
    simp only [List.cons_append, messages]
    cases hf : p.fin with
    | true => rfl
    | false =>
      obtain ⟨q, hq, hq'⟩ := h
      rcases List.mem_cons.1 hq with rfl | hq
      · rw [hf] at hq'; cases hq'
      · simp [ih ⟨q, hq, hq'⟩]

theorem messages_append_open {ps qs : List Pl} (h : ∀ p ∈ ps, p.fin = false) :
    messages (ps ++ qs) = ps.map (·.data) ++ messages qs := by
  induction ps with
  | nil => rfl
  | cons p ps ih =>
    have hp := h p (by simp)
    simp [messages, hp, ih fun q hq => h q (by simp [hq])]

theorem messages_prefix (ps qs : List Pl) : messages ps <+: messages (ps ++ qs) := by
  by_cases h : Ended ps
  · rw [messages_append_ended h]; exact List.prefix_refl _
  · have h' : ∀ p ∈ ps, p.fin = false := by
      intro p hp
      cases hf : p.fin with
      | false => rfl
      | true => exact absurd ⟨p, hp, hf⟩ h
    rw [messages_append_open h']
    have := messages_append_open (qs := []) h'
    simp only [List.append_nil, messages] at this
    rw [this]
    exact List.prefix_append _ _

/-- The state of `Recv` says how much it has taken. -/
structure Inv (s : St) : Prop where
  /-- While the iterator runs, what it has given is what was sent and is not waiting, none of which is the end. -/
  run : s.pc ≠ .back → ∃ taken, s.sent = taken ++ s.queue ∧ (∀ p ∈ taken, p.fin = false) ∧ s.got = taken.map (·.data)
  /-- Once it is back: stopped by its callback, or at the end, or with nothing left and the channel closed or the
  context ended. -/
  back : s.pc = .back → s.got <+: messages s.sent ∧
    (s.stopped = false → (Ended s.sent ∧ s.got = messages s.sent) ∨ (s.closed = true ∧ s.got = messages s.sent) ∨
      (s.ctxDone = true ∧ ∃ b, s.before = some b ∧ messages b <+: s.got))
  ctx : ∀ b, s.before = some b → b <+: s.sent
  done : s.ctxDone = true ↔ s.before ≠ none
  drain : s.pc = .drain → s.ctxDone = true
  err : s.err = none

theorem inv_init : Inv {} where
  run _ := ⟨[], by simp⟩
  back h := by simp at h
  ctx b h := by simp at h
  done := by simp
  drain h := by simp at h
  err := rfl

theorem inv_handle {more : Nat → Bool} {s : St} (h : Inv s) (hpc : s.pc ≠ .back) {p : Pl} {q : List Pl}
    (hq : s.queue = p :: q) : Inv (({ s with queue := q }).handle more p) := by
  obtain ⟨taken, h1, h2, h3⟩ := h.run hpc
  rw [hq] at h1
  have hm : messages s.sent = s.got ++ messages (p :: q) := by rw [h1, messages_append_open h2, h3]
  have hend : p.fin = true → Ended s.sent := fun hf => ⟨p, by simp [h1], hf⟩
  simp only [St.handle]
  by_cases hb : p.fin && p.data.isEmpty
  · simp only [hb, if_true]
    simp only [Bool.and_eq_true, List.isEmpty_iff] at hb
    have hg : s.got = messages s.sent := by rw [hm]; simp [messages, hb.1, hb.2]
    exact ⟨fun h => absurd rfl h, fun _ => ⟨by rw [← hg]; exact List.prefix_refl _, fun _ => .inl ⟨hend hb.1, hg⟩⟩,
      h.ctx, h.done, fun h => by simp at h, h.err⟩
  · simp only [hb, Bool.false_eq_true, if_false]
    have hne : p.fin = true → p.data ≠ [] := by
      intro hf hd; exact hb (by simp [hf, hd])
    have hpre : s.got ++ [p.data] <+: messages s.sent := by
      rw [hm]
      refine List.prefix_append_right_inj _ |>.2 ?_
      simp only [messages]
      by_cases hf : p.fin
      · simp [hf, hne hf]
      · simp [hf]
    by_cases hmo : more (s.got ++ [p.data]).length
    · simp only [hmo, Bool.not_true, Bool.false_eq_true, if_false]
      by_cases hf : p.fin
      · simp only [hf, if_true]
        have hg : s.got ++ [p.data] = messages s.sent := by rw [hm]; simp [messages, hf, hne hf]
        exact ⟨fun h => absurd rfl h, fun _ => ⟨hpre, fun _ => .inl ⟨hend hf, hg⟩⟩, h.ctx, h.done,
          fun h => by simp at h, h.err⟩
      · simp only [hf, Bool.false_eq_true, if_false]
        refine ⟨fun _ => ⟨taken ++ [p], by simp [h1], ?_, by simp [h3]⟩, fun h => absurd h hpc, h.ctx, h.done, h.drain,
          h.err⟩
        intro x hx
        rcases List.mem_append.1 hx with hx | hx
        · exact h2 x hx
        · simp only [List.mem_singleton] at hx; subst hx; simpa using hf
    · simp only [hmo, Bool.not_false, if_true]
      exact ⟨fun h => absurd rfl h, fun _ => ⟨hpre, fun h => by simp at h⟩, h.ctx, h.done, fun h => by simp at h, h.err⟩

theorem inv_step {more : Nat → Bool} {s s' : St} (h : Inv s) {a : Act} (e : s.step more a = some s') : Inv s' := by
  cases a with
  | push p =>
    simp only [St.step] at e
    split at e
    · cases e
    · cases e
      rename_i hc
      simp only [Bool.or_eq_true, decide_eq_true_eq, not_or, Bool.not_eq_true] at hc
      refine ⟨fun hpc => ?_, fun hpc => ?_, fun b hb => ?_, h.done, h.drain, h.err⟩
      · obtain ⟨t, h1, h2, h3⟩ := h.run hpc
        exact ⟨t, by simp [h1], h2, h3⟩
      · obtain ⟨h1, h2⟩ := h.back hpc
        refine ⟨h1.trans (messages_prefix _ _), fun hs => ?_⟩
        rcases h2 hs with ⟨h3, h4⟩ | ⟨h3, _⟩ | h3
        · exact .inl ⟨let ⟨x, hx, hx'⟩ := h3; ⟨x, by simp [hx], hx'⟩, by rw [messages_append_ended h3]; exact h4⟩
        · exact absurd h3 (by simp [hc.1])
        · exact .inr (.inr h3)
      · exact (h.ctx b hb).trans (List.prefix_append _ _)
  | close =>
    simp only [St.step] at e
    split at e
    · cases e
    · cases e
      refine ⟨h.run, fun hpc => ?_, h.ctx, h.done, h.drain, h.err⟩
      obtain ⟨h1, h2⟩ := h.back hpc
      refine ⟨h1, fun hs => ?_⟩
      rcases h2 hs with h3 | ⟨h3, h4⟩ | h3
      · exact .inl h3
      · exact .inr (.inl ⟨rfl, h4⟩)
      · exact .inr (.inr h3)
  | cancel =>
    simp only [St.step] at e
    split at e
    · cases e
    · rename_i hd
      cases e
      refine ⟨h.run, fun hpc => ?_, fun b hb => ?_, by simp, fun _ => rfl, h.err⟩
      · obtain ⟨h1, h2⟩ := h.back hpc
        refine ⟨h1, fun hs => ?_⟩
        rcases h2 hs with h3 | h3 | ⟨h3, _⟩
        · exact .inl h3
        · exact .inr (.inl h3)
        · exact absurd h3 hd
      · cases hb; exact List.prefix_refl _
  | seeDone =>
    simp only [St.step] at e
    split at e
    · rename_i hc
      cases e
      exact ⟨fun _ => h.run (by rw [hc.1]; simp), fun hpc => by simp at hpc, h.ctx, h.done, fun _ => hc.2, h.err⟩
    · cases e
  | take =>
    simp only [St.step] at e
    split at e
    · cases e
    · rename_i hpc
      split at e
      · rename_i p q hq
        cases e
        exact inv_handle h hpc hq
      · rename_i hq
        split at e
        · rename_i hc
          cases e
          obtain ⟨t, h1, h2, h3⟩ := h.run hpc
          have hg : s.got = messages s.sent := by
            rw [h1, hq, messages_append_open h2, h3]; simp [messages]
          exact ⟨fun h => absurd rfl h, fun _ => ⟨by rw [← hg]; exact List.prefix_refl _, fun _ => .inr (.inl ⟨hc, hg⟩)⟩,
            h.ctx, h.done, fun h => by simp at h, h.err⟩
        · cases e
  | drained =>
    simp only [St.step] at e
    split at e
    · rename_i hc
      cases e
      obtain ⟨t, h1, h2, h3⟩ := h.run (by rw [hc.1]; simp)
      have hg : s.got = messages s.sent := by
        rw [h1, hc.2.1, messages_append_open h2, h3]; simp [messages]
      refine ⟨fun h => absurd rfl h, fun _ => ⟨by rw [← hg]; exact List.prefix_refl _, fun _ => .inr (.inr ?_)⟩,
        h.ctx, h.done, fun h => by simp at h, h.err⟩
      have hd := h.drain hc.1
      refine ⟨hd, ?_⟩
      cases hb : s.before with
      | none => exact absurd hb (h.done.1 hd)
      | some b =>
        obtain ⟨r, hr⟩ := h.ctx b hb
        exact ⟨b, rfl, by show messages b <+: s.got; rw [hg, ← hr]; exact messages_prefix _ _⟩
    · cases e

theorem inv_run {more : Nat → Bool} {s s' : St} (h : Inv s) {as : List Act} (e : s.run more as = some s') :
    Inv s' := by
  induction as generalizing s with
  | nil => cases e; exact h
  | cons a as ih =>
    simp only [St.run] at e
    split at e
    · cases e
    · rename_i s1 h1; exact ih (inv_step h h1) e

/-- The payloads of a sequence of actions, in order. -/
def pushes : List Act → List Pl
  | [] => []
  | .push p :: as => p :: pushes as
  | _ :: as => pushes as

theorem sent_run {more : Nat → Bool} {s s' : St} {as : List Act} (e : s.run more as = some s') :
    s'.sent = s.sent ++ pushes as := by
  induction as generalizing s with
  | nil => cases e; simp [pushes]
  | cons a as ih =>
    simp only [St.run] at e
    split at e
    · cases e
    · rename_i s1 h1
      rw [ih e]
      cases a with
      | push p =>
        simp only [St.step] at h1
        split at h1
        · cases h1
        · cases h1; simp [pushes]
      | take =>
        simp only [St.step] at h1
        split at h1
        · cases h1
        · split at h1
          · cases h1
            simp only [St.handle, pushes]
            split
            · rfl
            · split
              · rfl
              · split <;> rfl
          · split at h1
            · cases h1; rfl
            · cases h1
      | _ =>
        simp only [St.step] at h1
        split at h1 <;> cases h1
        all_goals rfl

/-- **C119 (a)** Whatever happens, and whenever the callback says no, the handler is given messages of the stream the
client sent, from the first on, in order, each once and none after its end. -/
theorem C119_in_order (more : Nat → Bool) (as : List Act) (s : St) (h : St.run more {} as = some s) :
    s.got <+: messages (pushes as) := by
  have hi := inv_run inv_init h
  have hs := sent_run h
  simp only [List.nil_append] at hs
  rw [← hs]
  by_cases hb : s.pc = .back
  · exact (hi.back hb).1
  · obtain ⟨t, h1, h2, h3⟩ := hi.run hb
    rw [h1, messages_append_open h2, h3]
    exact List.prefix_append _ _

/-- **C119 (b)** If the context has not ended and the callback has not stopped it, the iterator ends only after all
the messages of the stream: those up to its end, or, without an end, all that came before the channel was closed. -/
theorem C119_complete (more : Nat → Bool) (as : List Act) (s : St) (h : St.run more {} as = some s)
    (hb : s.pc = .back) (hc : s.ctxDone = false) (hs : s.stopped = false) :
    s.got = messages (pushes as) ∧ (Ended (pushes as) ∨ s.closed = true) := by
  have hi := inv_run inv_init h
  have he := sent_run h
  simp only [List.nil_append] at he
  rw [← he]
  rcases (hi.back hb).2 hs with ⟨h1, h2⟩ | ⟨h1, h2⟩ | ⟨h1, _⟩
  · exact ⟨h2, .inl h1⟩
  · exact ⟨h2, .inr h1⟩
  · rw [hc] at h1; cases h1

/-- What had come when the context ended. -/
theorem before_run {more : Nat → Bool} {s s' : St} {as : List Act} (e : s.run more as = some s')
    (hn : Act.cancel ∉ as) : s'.before = s.before ∧ s'.ctxDone = s.ctxDone := by
  induction as generalizing s with
  | nil => cases e; simp
  | cons a as ih =>
    simp only [List.mem_cons, not_or] at hn
    simp only [St.run] at e
    split at e
    · cases e
    · rename_i s1 h1
      have := ih e hn.2
      rw [this.1, this.2]
      cases a with
      | cancel => exact absurd rfl hn.1
      | take =>
        simp only [St.step] at h1
        split at h1
        · cases h1
        · split at h1
          · cases h1
            simp only [St.handle]
            split
            · simp
            · split
              · simp
              · split <;> simp
          · split at h1
            · cases h1; simp
            · cases h1
      | _ =>
        simp only [St.step] at h1
        split at h1 <;> cases h1
        all_goals simp

theorem run_append {more : Nat → Bool} {s s' : St} {as bs : List Act} (e : s.run more (as ++ bs) = some s') :
    ∃ m, s.run more as = some m ∧ m.run more bs = some s' := by
  induction as generalizing s with
  | nil => exact ⟨s, rfl, e⟩
  | cons a as ih =>
    simp only [List.cons_append, St.run] at e ⊢
    split at e
    · cases e
    · rename_i s1 h1; exact ih e

/-- **C119 (c)** If the context ends, the handler is still given every message that had come before, unless its
callback stops the iterator. -/
theorem C119_drains (more : Nat → Bool) (as bs : List Act) (s : St)
    (h : St.run more {} (as ++ .cancel :: bs) = some s) (hb : s.pc = .back) (hs : s.stopped = false) :
    messages (pushes as) <+: s.got := by
  have hi := inv_run inv_init h
  have hsent := sent_run h
  simp only [List.nil_append] at hsent
  obtain ⟨m, h1, h2⟩ := run_append h
  have hm := sent_run h1
  simp only [List.nil_append] at hm
  have hcan : Act.cancel ∉ as ∧ Act.cancel ∉ bs ∧ s.before = some m.sent := by
    have key : ∀ {more : Nat → Bool} {s s' : St} {as : List Act}, s.run more as = some s' → s.ctxDone = true →
        Act.cancel ∉ as ∧ s'.ctxDone = true := by
      intro more s s' as e
      induction as generalizing s with
      | nil => intro h; cases e; exact ⟨by simp, h⟩
      | cons a as ih =>
        intro hd
        simp only [St.run] at e
        split at e
        · cases e
        · rename_i s1 h1
          have ha : a ≠ .cancel := by rintro rfl; simp [St.step, hd] at h1
          have h1' : s.run more [a] = some s1 := by simp [St.run, h1]
          have := before_run h1' (by simpa using ha.symm)
          obtain ⟨k1, k2⟩ := ih e (by rw [this.2]; exact hd)
          exact ⟨by simp [k1, ha.symm], k2⟩
    simp only [St.run] at h2
    split at h2
    · cases h2
    · rename_i m1 hm1
      simp only [St.step] at hm1
      split at hm1
      · cases hm1
      · rename_i hd
        cases hm1
        have hb' := (key h2 rfl).1
        refine ⟨fun ha => hd ?_, hb', (before_run h2 hb').1⟩
        obtain ⟨l, r, rfl⟩ := List.append_of_mem ha
        obtain ⟨m0, k1, k2⟩ := run_append h1
        simp only [St.run] at k2
        split at k2
        · cases k2
        · rename_i m1 hm1
          simp only [St.step] at hm1
          split at hm1
          · cases hm1
          · cases hm1; exact (key k2 rfl).2
  rw [← hm]
  rcases (hi.back hb).2 hs with ⟨_, h3⟩ | ⟨_, h3⟩ | ⟨_, b, h3, h4⟩
  · rw [h3]
    obtain ⟨r, hr⟩ := hi.ctx _ hcan.2.2
    rw [← hr]; exact messages_prefix _ _
  · rw [h3]
    obtain ⟨r, hr⟩ := hi.ctx _ hcan.2.2
    rw [← hr]; exact messages_prefix _ _
  · rw [hcan.2.2] at h3
    cases h3
    exact h4

/-- **C119 (d)** The iterator waits only while its context has not ended, the channel is open and there is nothing in
it; and if nothing more comes, it ends after at most two actions more than there are payloads waiting, if its context
has ended or the channel is closed. -/
theorem C119_returns (more : Nat → Bool) (s : St) (hb : s.pc ≠ .back) (h : s.ctxDone = true ∨ s.closed = true) :
    ∃ as s', as.length ≤ s.queue.length + 2 ∧ pushes as = [] ∧ Act.close ∉ as ∧ Act.cancel ∉ as ∧
      s.run more as = some s' ∧ s'.pc = .back := by
  generalize hn : s.queue.length = n
  induction n generalizing s with
  | zero =>
    have hq : s.queue = [] := List.eq_nil_of_length_eq_zero hn
    by_cases hc : s.closed = true
    · exact ⟨[.take], { s with pc := .back }, by simp, rfl, by simp, by simp,
        by simp [St.run, St.step, hb, hq, hc], rfl⟩
    · have hd : s.ctxDone = true := h.resolve_right hc
      have hc' : s.closed = false := by simpa using hc
      cases hp : s.pc with
      | loop => exact ⟨[.seeDone, .drained], { s with pc := .back }, by simp, rfl, by simp, by simp,
          by simp [St.run, St.step, hp, hd, hq, hc'], rfl⟩
      | drain => exact ⟨[.drained], { s with pc := .back }, by simp, rfl, by simp, by simp,
          by simp [St.run, St.step, hp, hq, hc'], rfl⟩
      | back => exact absurd hp hb
  | succ n ih =>
    cases hq : s.queue with
    | nil => rw [hq] at hn; cases hn
    | cons p q =>
      have hst : s.step more .take = some (({ s with queue := q }).handle more p) := by simp [St.step, hb, hq]
      generalize hs1 : (({ s with queue := q }).handle more p) = s1 at hst
      have hk : s1.queue = q ∧ s1.ctxDone = s.ctxDone ∧ s1.closed = s.closed := by
        rw [← hs1]; simp only [St.handle]
        split
        · simp
        · split
          · simp
          · split <;> simp
      by_cases hb1 : s1.pc = .back
      · exact ⟨[.take], s1, by simp, rfl, by simp, by simp, by simp [St.run, hst], hb1⟩
      · obtain ⟨as, s', h1, h2, h3, h4, h5, h6⟩ := ih s1 hb1 (by rw [hk.2.1, hk.2.2]; exact h)
          (by rw [hk.1]; rw [hq] at hn; simpa using hn)
        exact ⟨.take :: as, s', by simp; omega, by simp [pushes, h2], by simp [h3], by simp [h4],
          by simp [St.run, hst, h5], h6⟩

/-- Two messages and an empty end; one comes before the context ends, one after. -/
def demo : List Act :=
  [.push ⟨[1], false⟩, .take, .push ⟨[2], false⟩, .cancel, .seeDone, .push ⟨[], true⟩, .take, .take]

example : ∃ s, St.run (fun _ => true) {} demo = some s ∧ s.pc = .back ∧ s.got = [[1], [2]] ∧ s.stopped = false :=
  ⟨_, rfl, by decide, by decide, by decide⟩

/-- A stream that ends with data. -/
example : ∃ s, St.run (fun _ => true) {} [.push ⟨[1], false⟩, .take, .push ⟨[2], true⟩, .take] = some s ∧
    s.pc = .back ∧ s.got = [[1], [2]] ∧ s.ctxDone = false ∧ s.stopped = false :=
  ⟨_, rfl, by decide, by decide, by decide, by decide⟩

/-- What the callback has answered: yes until the last message it had, and if no then to that one. -/
structure Asked (more : Nat → Bool) (s : St) : Prop where
  yes : ∀ i, 1 ≤ i → i < s.got.length → more i = true
  go : s.stopped = false → s.got = [] ∨ more s.got.length = true
  no : s.stopped = true → s.pc = .back ∧ s.got ≠ [] ∧ more s.got.length = false

theorem asked_step {more : Nat → Bool} {s s' : St} (h : Asked more s) {a : Act} (e : s.step more a = some s') :
    Asked more s' := by
  cases a with
  | take =>
    simp only [St.step] at e
    split at e
    · cases e
    · rename_i hb
      have hst : s.stopped = false := by
        cases hs : s.stopped with
        | false => rfl
        | true => exact absurd (h.no hs).1 hb
      split at e
      · rename_i p q hq
        cases e
        simp only [St.handle]
        split
        · exact ⟨h.yes, h.go, fun hs => by simp [hst] at hs⟩
        · have hy : ∀ i, 1 ≤ i → i < s.got.length + 1 → more i = true := by
            intro i h1 h2
            by_cases hi : i < s.got.length
            · exact h.yes i h1 hi
            · have : i = s.got.length := by omega
              subst this
              rcases h.go hst with hg | hg
              · simp [hg] at h1
              · exact hg
          split
          · rename_i hm
            exact ⟨by simpa using hy, by simp, fun _ => ⟨rfl, by simp, by simpa using hm⟩⟩
          · rename_i hm
            have hm' : more (s.got.length + 1) = true := by simpa using hm
            split
            · exact ⟨by simpa using hy, by simp [hm'], by simp [hst]⟩
            · exact ⟨by simpa using hy, by simp [hm'], by simp [hst]⟩
      · split at e
        · cases e; exact ⟨h.yes, h.go, by simp [hst]⟩
        · cases e
  | seeDone =>
    simp only [St.step] at e
    split at e
    · rename_i hc
      cases e
      exact ⟨h.yes, h.go, fun hs => by have := (h.no hs).1; rw [hc.1] at this; cases this⟩
    · cases e
  | push p =>
    simp only [St.step] at e
    split at e
    · cases e
    · cases e; exact ⟨h.yes, h.go, h.no⟩
  | close =>
    simp only [St.step] at e
    split at e
    · cases e
    · cases e; exact ⟨h.yes, h.go, h.no⟩
  | cancel =>
    simp only [St.step] at e
    split at e
    · cases e
    · cases e; exact ⟨h.yes, h.go, h.no⟩
  | drained =>
    simp only [St.step] at e
    split at e
    · rename_i hc
      cases e
      exact ⟨h.yes, h.go, fun hs => by have := (h.no hs).1; rw [hc.1] at this; cases this⟩
    · cases e

theorem asked_run {more : Nat → Bool} {s s' : St} (h : Asked more s) {as : List Act} (e : s.run more as = some s') :
    Asked more s' := by
  induction as generalizing s with
  | nil => cases e; exact h
  | cons a as ih =>
    simp only [St.run] at e
    split at e
    · cases e
    · rename_i s1 h1; exact ih (asked_step h h1) e

/-- **C119 (e)** Once the loop over the iterator has stopped it is given nothing more: it had answered yes to every
message but the last, and the iterator counts as stopped exactly if it answered no to the last, and is then over. -/
theorem C119_stops (more : Nat → Bool) (as : List Act) (s : St) (h : St.run more {} as = some s) :
    (∀ i, 1 ≤ i → i < s.got.length → more i = true) ∧
    (s.stopped = true ↔ s.got ≠ [] ∧ more s.got.length = false) ∧ (s.stopped = true → s.pc = .back) := by
  have hi : Asked more s := asked_run ⟨by simp, by simp, by simp⟩ h
  refine ⟨hi.yes, ⟨fun hs => (hi.no hs).2, fun ⟨h1, h2⟩ => ?_⟩, fun hs => (hi.no hs).1⟩
  cases hs : s.stopped with
  | true => rfl
  | false => exact absurd h2 (by simp [(hi.go hs).resolve_left h1])

/-- The loop stops at its second message with a third waiting. -/
example : ∃ s, St.run (fun n => n < 2) {} [.push ⟨[1], false⟩, .push ⟨[2], false⟩, .push ⟨[3], false⟩, .take, .take]
    = some s ∧ s.pc = .back ∧ s.got = [[1], [2]] ∧ s.stopped = true :=
  ⟨_, rfl, by decide, by decide, by decide⟩

/-- Disagreement with C119: `Err` gives no error, ever; so a stream that was cut, by a lost connection, a cancelled
call or the end of its context, is like one that has ended. -/
theorem C119_no_error : (∀ more as s, St.run more {} as = some s → s.err = none) ∧
    (∃ s, St.run (fun _ => true) {} [.push ⟨[1], false⟩, .take, .close, .take] = some s ∧
      s.pc = .back ∧ s.got = [[1]] ∧ ¬ Ended s.sent) ∧
    (∃ s, St.run (fun _ => true) {} [.push ⟨[1], false⟩, .take, .cancel, .seeDone, .drained] = some s ∧
      s.pc = .back ∧ s.got = [[1]] ∧ ¬ Ended s.sent) ∧
    (∃ s, St.run (fun _ => true) {} [.push ⟨[1], false⟩, .take, .push ⟨[], true⟩, .take] = some s ∧
      s.pc = .back ∧ s.got = [[1]] ∧ Ended s.sent) :=
  ⟨fun _ _ _ h => (inv_run inv_init h).err,
   ⟨_, rfl, by decide, by decide, by unfold Ended; decide⟩,
   ⟨_, rfl, by decide, by decide, by unfold Ended; decide⟩,
   ⟨_, rfl, by decide, by decide, by unfold Ended; decide⟩⟩

/-! ### C120: interceptors of streams -/

variable {C I E : Type}

/-- An interceptor that gives the handler the stream it got itself, with a context of its choice. -/
def pass (f : C → C) : Chain.Interceptor C (Strm C) I (Out E) := fun c s _ next => next (f c) s

theorem nest_pass (fs : List (C → C)) (info : I) (h : Chain.Handler C (Strm C) (Out E)) (c : C) (s : Strm C) :
    Chain.nest (fs.map pass) info h c s = h (fs.foldl (fun c f => f c) c) s := by
  induction fs generalizing c with
  | nil => rfl
  | cons f fs ih => simp only [List.map_cons, Chain.nest, List.foldl_cons]; exact ih (f c)

/-- **C120 (partial)** With any number of interceptors that hand on the stream they got, the handler runs with the last
of their contexts, and what it returns is what is reported. Missing: interceptors that hand on a stream of their
own. -/
theorem C120_handed_on_partial (fs : List (C → C)) (ctx : C) (info : I) (h : C → C → Out E) :
    runHandler (Chain.chain (fs.map pass)) ctx info h = h (fs.foldl (fun c f => f c) ctx) ctx := by
  simp only [runHandler, Chain.invoke_chain, nest_pass]

/-- **C120 (b)** An interceptor that does not call the handler keeps it from running, wherever it is in the chain, and
what it gives is what is reported. -/
theorem C120_refused (fs : List (C → C)) (is : List (Chain.Interceptor C (Strm C) I (Out E))) (ctx : C) (info : I)
    (e : Option E) (h : C → C → Out E) :
    runHandler (Chain.chain (fs.map pass ++ (fun _ _ _ _ => .ret e) :: is)) ctx info h = .ret e := by
  simp only [runHandler, Chain.invoke_chain, Chain.nest_append, nest_pass, Chain.nest]

/-- Two interceptors that count up the context. -/
example : runHandler (E := Nat) (I := Unit) (Chain.chain ([(· + 1), (· * 2)].map pass)) 3 ()
    (fun c c0 => .ret (some (100 * c + c0))) = .ret (some 803) := by
  rw [C120_handed_on_partial]; rfl

/-- Disagreement with C120: an interceptor that hands on a stream of its own, to count or to check the messages, makes
the server panic, whatever the handler, wherever in the chain it is. -/
theorem C120_own_stream_panics (fs gs : List (C → C)) (n : Nat) (ctx : C) (info : I) (h : C → C → Out E) :
    runHandler (Chain.chain (fs.map pass ++ (fun c _ _ next => next c (.other n)) :: gs.map pass)) ctx info h
      = .panic := by
  simp only [runHandler, Chain.invoke_chain, Chain.nest_append, nest_pass, Chain.nest]

/-- Disagreement with C120: the stream keeps the context it was made with, so what the handler receives does not
depend on the context that an interceptor gives: if that one ends, `Recv` goes on waiting. -/
theorem C120_context_of_stream (f f' : C → C) (ctx : C) (info : I) (recv : C → Out E) :
    runHandler (Chain.chain [pass f]) ctx info (fun _ c0 => recv c0) =
      runHandler (Chain.chain [pass f']) ctx info (fun _ c0 => recv c0) := rfl

/-- Disagreement with C120: on a stream on which the client sends, `Send` of the stream the interceptor gets succeeds
and sends nothing. -/
theorem C120_send_lost (cancelled : Bool) (write : Bytes → Bool) (p : Bytes) :
    icptSend .send cancelled write p = ([], false) := rfl

/-- **C120 (c)** On the others it fails, or the payload is sent. -/
theorem C120_send (k : Kind) (hk : k ≠ .send) (cancelled : Bool) (write : Bytes → Bool) (p : Bytes) :
    (icptSend k cancelled write p).2 = false → (icptSend k cancelled write p).1 = [p] ∧ write p = true := by
  cases k <;> simp only [icptSend] <;> (try contradiction) <;> (repeat' split) <;> simp_all

/-! ### C121: trailers -/

open Metadata

/-- A map of the caller: each key once, and buffers that exist. -/
def Good (n : Nat) (m : AMap) : Prop := (m.map (·.1)).Nodup ∧ ∀ e ∈ m, e.2 < n

/-- The value that the last map with the key has for it. -/
def lastOf (bufs : List Bytes) (k : Str) : List (Option AMap) → Option Bytes
  | [] => none
  | md :: mds => match lastOf bufs k mds with
    | some v => some v
    | none => (md.bind (·.look k)).bind (bufs[·]?)

theorem look_put (m : AMap) (k k' : Str) (b : Nat) :
    (m.put k b).look k' = if k = k' then some b else m.look k' := by
  induction m with
  | nil => simp only [AMap.put, AMap.look, List.find?_cons]; by_cases h : k = k' <;> simp [h]
  | cons e m ih =>
    simp only [AMap.put]
    by_cases he : e.1 = k
    · simp only [he, if_true, AMap.look, List.find?_cons]
      by_cases h : k = k' <;> simp [h]
    · rw [if_neg he]
      simp only [AMap.look, List.find?_cons] at ih ⊢
      by_cases h : e.1 = k'
      · have : ¬ k = k' := fun h' => he (h.trans h'.symm)
        simp [h, this]
      · simp only [h, decide_false]; exact ih

theorem look_fold (m : AMap) (hm : (m.map (·.1)).Nodup) (x : AMap) (k : Str) :
    (m.foldl (fun x e => x.put e.1 e.2) x).look k = match m.look k with
      | some b => some b
      | none => x.look k := by
  induction m generalizing x with
  | nil => rfl
  | cons e m ih =>
    simp only [List.map_cons, List.nodup_cons] at hm
    rw [List.foldl_cons, ih hm.2, look_put]
    simp only [AMap.look, List.find?_cons]
    by_cases h : e.1 = k
    · have : m.find? (fun e => decide (e.1 = k)) = none := by
        rw [List.find?_eq_none]
        intro y hy hk
        simp only [decide_eq_true_eq] at hk
        exact hm.1 (List.mem_map.2 ⟨y, hy, hk.trans h.symm⟩)
      simp [this, h]
    · simp [h]

theorem clone_look (m : AMap) (bufs : List Bytes) (hm : ∀ e ∈ m, e.2 < bufs.length) :
    bufs <+: (Tr.cloneLoop bufs m).1 ∧
    ∀ k, ((Tr.cloneLoop bufs m).2.look k).bind ((Tr.cloneLoop bufs m).1[·]?) = (m.look k).bind (bufs[·]?) ∧
      ∀ b, (Tr.cloneLoop bufs m).2.look k = some b → bufs.length ≤ b := by
  induction m generalizing bufs with
  | nil => exact ⟨List.prefix_refl _, fun k => ⟨rfl, fun b h => by cases h⟩⟩
  | cons e m ih =>
    obtain ⟨k0, b0⟩ := e
    have hb0 : b0 < bufs.length := hm (k0, b0) (by simp)
    obtain ⟨v, hv⟩ : ∃ v, bufs[b0]? = some v := ⟨_, List.getElem?_eq_getElem hb0⟩
    obtain ⟨p, q⟩ := ih (bufs ++ [(bufs[b0]?).getD []]) (fun e he => by
      have := hm e (by simp [he]); simp; omega)
    simp only [Tr.cloneLoop]
    refine ⟨(List.prefix_append _ _).trans p, fun k => ?_⟩
    simp only [AMap.look, List.find?_cons]
    by_cases hk : k0 = k
    · simp only [hk, decide_true, Option.map_some, Option.bind_some]
      refine ⟨?_, fun b hb => by cases hb; exact Nat.le_refl _⟩
      obtain ⟨r, hr⟩ := p
      rw [← hr, hv]
      simp
    · simp only [hk, decide_false]
      have := q k
      simp only [AMap.look] at this
      refine ⟨?_, fun b hb => by have := this.2 b hb; simp at this; omega⟩
      rw [this.1]
      cases hf : m.find? (fun e => decide (e.1 = k)) with
      | none => rfl
      | some e =>
        have := hm e (by simp [List.mem_of_find?_eq_some hf])
        simp only [Option.map_some, Option.bind_some]
        rw [List.getElem?_append_left this]

theorem set_view (bufs : List Bytes) (t : Tr) (hp : bufs <+: t.bufs)
    (ht : ∀ x, t.trailer = some x → ∀ k b, x.look k = some b → b < t.bufs.length) (md : Option AMap)
    (hm : ∀ m, md = some m → Good bufs.length m) :
    bufs <+: (t.set md).bufs ∧
    (∀ x, (t.set md).trailer = some x → ∀ k b, x.look k = some b → b < (t.set md).bufs.length) ∧
    ∀ k, (t.set md).view k = match (md.bind (·.look k)).bind (bufs[·]?) with
      | some v => some v
      | none => t.view k := by
  obtain ⟨rest, hr⟩ := hp
  have hold : ∀ b, b < bufs.length → t.bufs[b]? = bufs[b]? := by
    intro b hb; rw [← hr, List.getElem?_append_left hb]
  have hin : ∀ m, md = some m → ∀ k b, m.look k = some b → b < bufs.length := by
    intro m hmd k b hb
    simp only [AMap.look, Option.map_eq_some_iff] at hb
    obtain ⟨e, he, rfl⟩ := hb
    exact (hm m hmd).2 e (List.mem_of_find?_eq_some he)
  cases hx : t.trailer with
  | none =>
    cases md with
    | none =>
      simp only [Tr.set, hx]
      exact ⟨⟨rest, hr⟩, fun x h => (by simp at h), fun k => (by simp)⟩
    | some m =>
      have hg := hm m rfl
      obtain ⟨p, q⟩ := clone_look m t.bufs (fun e he => by
        have := hg.2 e he; rw [← hr]; simp; omega)
      simp only [Tr.set, hx]
      refine ⟨List.IsPrefix.trans ⟨rest, hr⟩ p, ?_, fun k => ?_⟩
      · intro x h k b hb
        cases h
        have h1 := (q k).1
        rw [hb] at h1
        simp only [Option.bind_some] at h1
        -- the buffer exists since its contents do
        cases hl : m.look k with
        | none =>
          exfalso
          -- no such key in the copy
          have key : ∀ (m : AMap) (bufs : List Bytes), m.look k = none → (Tr.cloneLoop bufs m).2.look k = none := by
            intro m
            induction m with
            | nil => intro _ _; rfl
            | cons e m ih =>
              intro bufs h
              obtain ⟨k0, b0⟩ := e
              simp only [AMap.look, List.find?_cons, Tr.cloneLoop] at h ⊢
              by_cases hk : k0 = k
              · simp [hk] at h
              · simp only [hk, decide_false] at h ⊢
                exact ih _ h
          rw [key m _ hl] at hb
          cases hb
        | some b' =>
          have hb' := hin m rfl k b' hl
          rw [hl] at h1
          simp only [Option.bind_some] at h1
          rw [hold b' hb', List.getElem?_eq_getElem hb'] at h1
          obtain ⟨hlt, _⟩ := List.getElem?_eq_some_iff.1 h1
          exact hlt
      · simp only [Tr.view, Option.bind_some, hx, Option.bind_none]
        rw [(q k).1]
        cases hl : m.look k with
        | none => simp
        | some b =>
          have := hold b (hin m rfl k b hl)
          simp only [Option.bind_some, this]
          cases bufs[b]? <;> rfl
  | some x =>
    cases md with
    | none =>
      simp only [Tr.set, hx]
      exact ⟨⟨rest, hr⟩, fun y h => by cases h; exact ht x hx, fun k => by simp [Tr.view, hx]⟩
    | some m =>
      have hg := hm m rfl
      simp only [Tr.set, hx]
      refine ⟨⟨rest, hr⟩, ?_, fun k => ?_⟩
      · intro y h k b hb
        cases h
        rw [look_fold m hg.1] at hb
        cases hl : m.look k with
        | none => rw [hl] at hb; exact ht x hx k b hb
        | some b' =>
          rw [hl] at hb; cases hb
          have := hin m rfl k _ hl
          rw [← hr]; simp; omega
      · simp only [Tr.view, Option.bind_some, hx]
        rw [look_fold m hg.1]
        cases hl : m.look k with
        | none => simp
        | some b =>
          have hb := hin m rfl k b hl
          simp only [Option.bind_some, hold b hb, List.getElem?_eq_getElem hb]

/-- The trailer after calls of SetTrailer. -/
def Tr.after (t : Tr) (mds : List (Option AMap)) : Tr := mds.foldl Tr.set t

/-- **C121 (a)** After any number of calls of `SetTrailer` the trailer has, for every key, the value of the last call
whose metadata have the key, and no other keys. -/
theorem C121_merged (bufs : List Bytes) (mds : List (Option AMap))
    (hm : ∀ m, some m ∈ mds → Good bufs.length m) (k : Str) :
    (Tr.after ⟨bufs, none⟩ mds).view k = lastOf bufs k mds := by
  have key : ∀ (mds : List (Option AMap)) (t : Tr), (∀ m, some m ∈ mds → Good bufs.length m) → bufs <+: t.bufs →
      (∀ x, t.trailer = some x → ∀ k b, x.look k = some b → b < t.bufs.length) →
      (t.after mds).view k = match lastOf bufs k mds with
        | some v => some v
        | none => t.view k := by
    intro mds
    induction mds with
    | nil => intro t _ _ _; rfl
    | cons md mds ih =>
      intro t hm hp ht
      obtain ⟨h1, h2, h3⟩ := set_view bufs t hp ht md (fun m h => hm m (by simp [h]))
      have := ih (t.set md) (fun m h => hm m (by simp [h])) h1 h2
      simp only [Tr.after, List.foldl_cons] at this ⊢
      rw [this, h3 k]
      simp only [lastOf]
      cases lastOf bufs k mds with
      | some v => rfl
      | none => rfl
  rw [key mds ⟨bufs, none⟩ hm (List.prefix_refl _) (fun x h => by cases h)]
  cases lastOf bufs k mds with
  | some v => rfl
  | none => rfl

/-- Three calls: a key set twice, a nil map, a key of the last call only. -/
example : let bufs : List Bytes := [[1], [2], [3]]
    let t := Tr.after ⟨bufs, none⟩ [some [(lit "a", 0), (lit "b", 1)], none, some [(lit "a", 2)]]
    t.view (lit "a") = some [3] ∧ t.view (lit "b") = some [2] ∧ t.view (lit "c") = none := by decide +kernel

theorem put_keys (m : AMap) (k : Str) (b : Nat) :
    (m.put k b).map (·.1) = if k ∈ m.map (·.1) then m.map (·.1) else m.map (·.1) ++ [k] := by
  induction m with
  | nil => simp [AMap.put]
  | cons e m ih =>
    simp only [AMap.put]
    by_cases he : e.1 = k
    · simp [he]
    · have he' : ¬ k = e.1 := fun h => he h.symm
      rw [if_neg he]
      simp only [List.map_cons, ih, List.mem_cons, he', false_or]
      split <;> simp

theorem fold_nodup (m x : AMap) (h : (x.map (·.1)).Nodup) :
    ((m.foldl (fun x e => x.put e.1 e.2) x).map (·.1)).Nodup := by
  induction m generalizing x with
  | nil => exact h
  | cons e m ih =>
    rw [List.foldl_cons]
    refine ih _ ?_
    rw [put_keys]
    split
    · exact h
    · rename_i hn
      rw [List.nodup_append]
      exact ⟨h, by simp, by intro a ha b hb; simp only [List.mem_singleton] at hb; subst hb; exact fun h => hn (h ▸ ha)⟩

theorem clone_keys (m : AMap) (bufs : List Bytes) : (Tr.cloneLoop bufs m).2.map (·.1) = m.map (·.1) := by
  induction m generalizing bufs with
  | nil => rfl
  | cons e m ih => simp [Tr.cloneLoop, ih]

theorem after_nodup (t : Tr) (ht : ∀ x, t.trailer = some x → (x.map (·.1)).Nodup) (n : Nat) (mds : List (Option AMap))
    (hm : ∀ m, some m ∈ mds → Good n m) : ∀ x, (t.after mds).trailer = some x → (x.map (·.1)).Nodup := by
  induction mds generalizing t with
  | nil => exact ht
  | cons md mds ih =>
    simp only [Tr.after, List.foldl_cons]
    refine ih (t.set md) ?_ (fun m h => hm m (by simp [h]))
    intro x hx
    cases htr : t.trailer with
    | none =>
      cases md with
      | none => simp [Tr.set, htr] at hx
      | some m =>
        simp only [Tr.set, htr, Option.some.injEq] at hx
        subst hx
        rw [clone_keys]
        exact (hm m (by simp)).1
    | some y =>
      cases md with
      | none => simp only [Tr.set, htr, Option.some.injEq] at hx; subst hx; exact ht y htr
      | some m =>
        simp only [Tr.set, htr, Option.some.injEq] at hx
        subst hx
        exact fold_nodup m y (ht y htr)

theorem after_valid (bufs : List Bytes) (mds : List (Option AMap)) (t : Tr) (hm : ∀ m, some m ∈ mds → Good bufs.length m)
    (hp : bufs <+: t.bufs) (ht : ∀ x, t.trailer = some x → ∀ k b, x.look k = some b → b < t.bufs.length) :
    ∀ x, (t.after mds).trailer = some x → ∀ k b, x.look k = some b → b < (t.after mds).bufs.length := by
  induction mds generalizing t with
  | nil => exact ht
  | cons md mds ih =>
    obtain ⟨h1, h2, _⟩ := set_view bufs t hp ht md (fun m h => hm m (by simp [h]))
    exact ih (t.set md) (fun m h => hm m (by simp [h])) h1 h2

theorem look_of_mem {x : AMap} (h : (x.map (·.1)).Nodup) {e : Str × Nat} (he : e ∈ x) : x.look e.1 = some e.2 := by
  induction x with
  | nil => cases he
  | cons a x ih =>
    simp only [List.map_cons, List.nodup_cons] at h
    simp only [AMap.look, List.find?_cons]
    rcases List.mem_cons.1 he with rfl | he
    · simp
    · have : ¬ a.1 = e.1 := fun h' => h.1 (h' ▸ List.mem_map.2 ⟨e, he, rfl⟩)
      simp only [this, decide_false]
      exact ih h.2 he

/-- **C121 (b)** The Close message has these entries, each key once, and no other. -/
theorem C121_sent (code : Nat) (text : Bytes) (bufs : List Bytes) (mds : List (Option AMap))
    (hm : ∀ m, some m ∈ mds → Good bufs.length m) :
    ((sendClose code text (Tr.after ⟨bufs, none⟩ mds)).md.map (·.1)).Nodup ∧
    ∀ k v, (k, v) ∈ (sendClose code text (Tr.after ⟨bufs, none⟩ mds)).md ↔ lastOf bufs k mds = some v := by
  have hnd := after_nodup ⟨bufs, none⟩ (fun x h => by cases h) bufs.length mds hm
  have hva := after_valid bufs mds ⟨bufs, none⟩ hm (List.prefix_refl _) (fun x h => by cases h)
  have hme := fun k => C121_merged bufs mds hm k
  generalize Tr.after ⟨bufs, none⟩ mds = t at *
  cases hx : t.trailer with
  | none =>
    refine ⟨by simp [sendClose, hx], fun k v => ?_⟩
    have := hme k
    simp only [Tr.view, hx, Option.bind_none] at this
    simp [sendClose, hx, ← this]
  | some x =>
    have hn := hnd x hx
    refine ⟨by simpa [sendClose, hx, Function.comp_def] using hn, fun k v => ?_⟩
    rw [← hme k]
    simp only [sendClose, hx, Option.getD_some, List.mem_map, Tr.view, Option.bind_some]
    constructor
    · rintro ⟨e, he, heq⟩
      have h1 := look_of_mem hn he
      have h2 := hva x hx _ _ h1
      rw [List.getElem?_eq_getElem h2] at heq
      cases heq
      rw [h1, Option.bind_some, List.getElem?_eq_getElem h2]
      rfl
    · intro h
      obtain ⟨b, hl, hb⟩ := Option.bind_eq_some_iff.1 h
      simp only [AMap.look, Option.map_eq_some_iff] at hl
      obtain ⟨e, he, rfl⟩ := hl
      have hk := List.find?_some he
      simp only [decide_eq_true_eq] at hk
      exact ⟨e, List.mem_of_find?_eq_some he, by simp [hk, hb]⟩

example : (sendClose 0 [] (Tr.after ⟨[[1], [2], [3]], none⟩
    [some [(lit "a", 0), (lit "b", 1)], none, some [(lit "a", 2)]])).md = [(lit "a", [3]), (lit "b", [2])] := by
  decide +kernel

/-- Disagreement with C121: no caller ever sees a trailer: all that the client makes of a Close message is the same
whatever its trailer. -/
theorem C121_lost (code : Nat) (text : Bytes) (t t' : Tr) :
    clientView (sendClose code text t) = clientView (sendClose code text t') := rfl

/-- Disagreement with C121: the metadata of the first call are copied, those of the later ones are not: if the caller
reuses its buffers after the calls, the trailer changes. -/
theorem C121_shared :
    let t := Tr.after ⟨[[1], [2]], none⟩ [some [(lit "a", 0)], some [(lit "b", 1)]]
    let reused : Tr := { t with bufs := (t.bufs.set 0 [9]).set 1 [9] }
    t.view (lit "a") = some [1] ∧ t.view (lit "b") = some [2] ∧
      reused.view (lit "a") = some [1] ∧ reused.view (lit "b") = some [9] := by decide +kernel

end Claw.SrvStream
