import Verif.Spec.Opening

/-!
# C149: a call reaches the handler registered for it, or fails saying why

The claim is false in several ways; `C149_reach_partial` is what holds.
-/

namespace Claw.Opening

open Claw

/-- What the state of the server has to do with what happened. -/
structure OInv (es : List Ev) (w : World) : Prop where
  reg : w.srv.reg = (Registry.runAll Registry.new (regsOf es)).1
  drain : w.srv.draining = true ↔ Drained es
  next : ∃ k, k ≤ opens es ∧ w.srv.next = UInt32.ofNat (1 + k) ∧
    w.srv.ran.map Ran.sid = (List.range k).map fun i => UInt32.ofNat (1 + i)

theorem regsOf_append (a b : List Ev) : regsOf (a ++ b) = regsOf a ++ regsOf b := by
  induction a with
  | nil => rfl
  | cons e a ih => cases e <;> simp [regsOf, ih]

theorem opens_append (a b : List Ev) : opens (a ++ b) = opens a + opens b := by
  induction a with
  | nil => simp [opens]
  | cons e a ih => cases e <;> simp [opens, ih] <;> omega

theorem run_append (a b : List Ev) : ∀ w : World, w.run (a ++ b) = (w.run a).run b := by
  induction a with
  | nil => intro w; rfl
  | cons e a ih => intro w; exact ih _

theorem drained_append (a b : List Ev) : Drained (a ++ b) ↔ Drained a ∨ Drained b := by
  simp only [Drained, List.mem_append, or_and_right, exists_or]

theorem dispatch_sid (sid : UInt32) (h : Handler) (md : Md) : (dispatch sid h md).sid = sid := by
  unfold dispatch; split
  · rfl
  · split <;> rfl

theorem opening_step {es : List Ev} {w : World} (h : OInv es w) (e : Ev) : OInv (es ++ [e]) (w.step e) := by
  obtain ⟨k, h1, h2, h3⟩ := h.next
  cases e with
  | register r =>
    refine ⟨?_, ?_, k, by rw [opens_append]; omega, h2, h3⟩
    · simp only [World.step, regsOf_append, regsOf, Registry.runAll_append, h.reg, Registry.runAll]
    · rw [drained_append]; simp only [World.step, h.drain, Drained, List.mem_singleton]; simp
  | drain =>
    refine ⟨?_, ?_, k, by rw [opens_append]; omega, h2, h3⟩
    · simp only [World.step, regsOf_append, regsOf, List.append_nil, h.reg]
    · rw [drained_append]; simp only [World.step, Drained, List.mem_singleton]; simp
  | «open» c =>
    have hreg : regsOf (es ++ [.open c]) = regsOf es := by simp [regsOf_append, regsOf]
    have hd : Drained (es ++ [.open c]) ↔ Drained es := by
      rw [drained_append]; simp only [Drained, List.mem_singleton]; simp
    have ho : opens (es ++ [.open c]) = opens es + 1 := by rw [opens_append]; rfl
    simp only [World.step, World.open, Srv.handleOpen]
    split
    · exact ⟨by rw [hreg]; exact h.reg, by rw [hd]; exact h.drain, k, by omega, h2, h3⟩
    · split
      · exact ⟨by rw [hreg]; exact h.reg, by rw [hd]; exact h.drain, k, by omega, h2, h3⟩
      · split
        · exact ⟨by rw [hreg]; exact h.reg, by rw [hd]; exact h.drain, k, by omega, h2, h3⟩
        · refine ⟨by rw [hreg]; exact h.reg, by rw [hd]; exact h.drain, k + 1, by omega, ?_, ?_⟩
          · show w.srv.next + 1 = _
            rw [h2, ← Nat.add_assoc, UInt32.ofNat_add (1 + k) 1]; rfl
          · simp only [List.map_append, h3, List.range_succ, List.map_cons, List.map_nil, dispatch_sid, h2]

theorem opening_inv (cv sv : Version) (es : List Ev) : OInv es ((World.new cv sv).run es) := by
  suffices ∀ (b a : List Ev) (w : World), OInv a w → OInv (a ++ b) (w.run b) from
    this es [] _ ⟨rfl, by simp [World.new, Drained], 0, by simp [opens], rfl, rfl⟩
  intro b
  induction b with
  | nil => intro a w h; rw [List.append_nil]; exact h
  | cons e b ih =>
    intro a w h
    have := ih (a ++ [e]) _ (opening_step h e)
    rw [List.append_assoc] at this; exact this

theorem opening_lookup {es : List Ev} {w : World} (h : OInv es w) {c : Call} (hp : PlainNames es c) :
    Registry.lookup w.srv.reg c.pkg c.service c.call = Registry.firstFor (regsOf es) c.pkg c.service c.call := by
  rw [h.reg, Registry.runAll_lookup _ _ _ _ _ hp.1 hp.2]; rfl

/-- **C149, partial.** For names without `/`, handlers registered by value and fewer than 2^32 - 1 calls on the
connection: a call gets a session exactly when a handler is registered for it, is of its kind, and the server is not
draining. Then the function registered first for these names runs, in that session and in no other, with the metadata
of the call if it is a synchronous one; else nothing runs. Missing: `C149_reason_lost`, `C149_stream_metadata_lost`,
`C149_versions_ignored`, `C149_by_pointer`, `C149_wrong_handler`, `C149_wrap`. -/
theorem C149_reach_partial (cv sv : Version) (es : List Ev) (c : Call) (hp : PlainNames es c)
    (hv : ∀ r ∈ regsOf es, r.h.byPointer = false) (hn : opens es < 2 ^ 32 - 1) :
    (∀ h, Reaches es c h → ∃ sid, (((World.new cv sv).run es).open c).2 = .session sid ∧
      (∀ x ∈ ((World.new cv sv).run es).srv.ran, x.sid ≠ sid) ∧
      (((World.new cv sv).run es).open c).1.srv.ran = ((World.new cv sv).run es).srv.ran ++
        [⟨sid, some h.fn, if c.kind = .sync then some c.md else none⟩]) ∧
    ((∀ h, ¬ Reaches es c h) → (∃ cat text, (((World.new cv sv).run es).open c).2 = .failed cat text) ∧
      (((World.new cv sv).run es).open c).1.srv.ran = ((World.new cv sv).run es).srv.ran) := by
  have hinv := opening_inv cv sv es
  generalize (World.new cv sv).run es = w at hinv
  have hl := opening_lookup hinv hp
  obtain ⟨k, h1, h2, h3⟩ := hinv.next
  have hid : ∀ i, i ≤ k → (UInt32.ofNat (1 + i)).toNat = 1 + i := by
    intro i hi; rw [UInt32.toNat_ofNat']; omega
  constructor
  · rintro h ⟨r1, r2, r3⟩
    rw [r2] at hl
    have hd : w.srv.draining = false := by
      cases hd : w.srv.draining with
      | false => rfl
      | true => exact absurd (hinv.drain.1 hd) r1
    have hb : h.byPointer = false := by
      have : ∀ rs : List (Registry.Reg Handler), (∀ r ∈ rs, r.h.byPointer = false) →
          Registry.firstFor rs c.pkg c.service c.call = some h → h.byPointer = false := by
        intro rs
        induction rs with
        | nil => intro _ e; simp [Registry.firstFor] at e
        | cons r rs ih =>
          intro hr e
          simp only [Registry.firstFor] at e
          split at e
          · have e := Option.some.inj e; subst e; exact hr r (by simp)
          · exact ih (fun r' h' => hr r' (by simp [h'])) e
      exact this _ hv r2
    have hne : w.srv.next ≠ 0 := by
      intro e; rw [h2] at e; have := congrArg UInt32.toNat e; rw [hid k (Nat.le_refl _)] at this; simp at this
    refine ⟨w.srv.next, ?_, ?_, ?_⟩
    · simp [World.open, World.answer, World.openMsg, Srv.handleOpen, hd, hl, r3, ackResult, Srv.ack, hne]
    · intro x hx e
      have hm : x.sid ∈ w.srv.ran.map Ran.sid := List.mem_map_of_mem hx
      rw [h3, List.mem_map] at hm
      obtain ⟨i, hi, e2⟩ := hm
      rw [List.mem_range] at hi
      rw [e, h2] at e2
      have := congrArg UInt32.toNat e2
      rw [hid k (Nat.le_refl _), hid i (by omega)] at this
      omega
    · simp only [World.open, World.openMsg, Srv.handleOpen, hd, hl, r3, dispatch, hb]
      cases c.kind <;> simp
  · intro hno
    simp only [World.open, World.answer, World.openMsg, Srv.handleOpen]
    split
    · exact ⟨⟨_, _, rfl⟩, rfl⟩
    · rename_i hd
      rw [hl]
      cases hf : Registry.firstFor (regsOf es) c.pkg c.service c.call with
      | none => exact ⟨⟨_, _, rfl⟩, rfl⟩
      | some h =>
        have hk : h.kind ≠ c.kind := fun e => hno h ⟨fun d => hd (hinv.drain.2 d), hf, e⟩
        simp only [hk, ne_eq, not_false_eq_true, if_true]
        exact ⟨⟨_, _, rfl⟩, trivial⟩

/-- **C149, refuted (1): the reason.** The server says why it rejects a call; whatever it says the caller is told the
same, `Unavailable` with one text, so that no retry rule can tell a server that drains from a method that does not
exist. -/
theorem C149_reason_lost (cv sv : Version) (es : List Ev) (c : Call) (hp : PlainNames es c)
    (hr : ∀ h, ¬ Reaches es c h) :
    (((World.new cv sv).run es).open c).2 = .failed errUnavailable (lit "session open rejected by server") ∧
    (Drained es → (((World.new cv sv).run es).answer c).code = errUnavailable) ∧
    (¬ Drained es → Registry.firstFor (regsOf es) c.pkg c.service c.call = none →
      (((World.new cv sv).run es).answer c).code = errUnimplemented) ∧
    (∀ h, ¬ Drained es → Registry.firstFor (regsOf es) c.pkg c.service c.call = some h →
      (((World.new cv sv).run es).answer c).code = errInvalidArgument) := by
  have hinv := opening_inv cv sv es
  generalize (World.new cv sv).run es = w at hinv
  have hl := opening_lookup hinv hp
  have hnd : ¬ Drained es → w.srv.draining = false := by
    intro h
    cases hd : w.srv.draining with
    | false => rfl
    | true => exact absurd (hinv.drain.1 hd) h
  have hk : ∀ h, ¬ Drained es → Registry.firstFor (regsOf es) c.pkg c.service c.call = some h → h.kind ≠ c.kind :=
    fun h d f e => hr h ⟨d, f, e⟩
  refine ⟨?_, ?_, ?_, ?_⟩
  · simp only [World.open, World.answer, World.openMsg, Srv.handleOpen]
    split
    · rfl
    · rename_i hd
      rw [hl]
      cases hf : Registry.firstFor (regsOf es) c.pkg c.service c.call with
      | none => rfl
      | some h => simp only [hk h (fun d => hd (hinv.drain.2 d)) hf, ne_eq, not_false_eq_true, if_true]; rfl
  · intro d
    simp [World.answer, World.openMsg, Srv.handleOpen, hinv.drain.2 d, Srv.ack]
  · intro d f
    rw [f] at hl
    simp [World.answer, World.openMsg, Srv.handleOpen, hnd d, hl, Srv.ack]
  · intro h d f
    rw [f] at hl
    simp [World.answer, World.openMsg, Srv.handleOpen, hnd d, hl, hk h d f, Srv.ack]

/-- **C149, refuted (2): metadata of streams.** The handler of a stream has no access to the metadata of the call: it
runs the same whatever they are. -/
theorem C149_stream_metadata_lost (cv sv : Version) (es : List Ev) (c : Call) (md : Md) (hc : c.kind ≠ .sync) :
    (((World.new cv sv).run es).open { c with md := md }) = ((World.new cv sv).run es).open c := by
  generalize (World.new cv sv).run es = w
  simp only [World.open, World.answer, World.openMsg, Srv.handleOpen]
  split
  · rfl
  · cases Registry.lookup w.srv.reg c.pkg c.service c.call with
    | none => rfl
    | some h =>
      by_cases e : h.kind = c.kind
      · simp only [e, ne_eq, not_true_eq_false, if_false, dispatch]
        cases hck : c.kind <;> simp_all [Srv.ack]
      · simp [e, Srv.ack]

/-- Two worlds that differ in the versions only. -/
def SameBut (w w' : World) : Prop :=
  w.nextOpen = w'.nextOpen ∧ w.srv.reg = w'.srv.reg ∧ w.srv.draining = w'.srv.draining ∧ w.srv.next = w'.srv.next ∧
    w.srv.ran = w'.srv.ran

theorem sameBut_open {w w' : World} (h : SameBut w w') (c : Call) :
    SameBut (w.open c).1 (w'.open c).1 ∧ (w.open c).2 = (w'.open c).2 := by
  obtain ⟨h1, h2, h3, h4, h5⟩ := h
  simp only [SameBut, World.open, World.answer, World.openMsg, Srv.handleOpen, h1, h2, h3, h4, h5]
  cases w'.srv.draining with
  | true => simp [h2, h3, h4, h5, ackResult, Srv.ack]
  | false =>
    cases Registry.lookup w'.srv.reg c.pkg c.service c.call with
    | none => simp [h2, h3, h4, h5, ackResult, Srv.ack]
    | some h => by_cases hk : h.kind = c.kind <;> simp [hk, h2, h3, h4, h5, ackResult, Srv.ack]

theorem sameBut_run (es : List Ev) : ∀ w w' : World, SameBut w w' → SameBut (w.run es) (w'.run es) := by
  induction es with
  | nil => intro w w' h; exact h
  | cons e es ih =>
    intro w w' h
    apply ih
    cases e with
    | register r => obtain ⟨h1, h2, h3, h4, h5⟩ := h; exact ⟨h1, by simp only [World.step, h2], h3, h4, h5⟩
    | drain => obtain ⟨h1, h2, h3, h4, h5⟩ := h; exact ⟨h1, h2, rfl, h4, h5⟩
    | «open» c => exact (sameBut_open h c).1

/-- **C149, refuted (3): versions.** Both sides send a protocol version and nobody reads it: whatever the two versions
are, the same calls get sessions and the same handlers run. -/
theorem C149_versions_ignored (cv sv cv' sv' : Version) (es : List Ev) (c : Call) :
    (((World.new cv sv).run es).open c).2 = (((World.new cv' sv').run es).open c).2 ∧
    (((World.new cv sv).run es).open c).1.srv.ran = (((World.new cv' sv').run es).open c).1.srv.ran := by
  have h := sameBut_open (sameBut_run es (World.new cv sv) (World.new cv' sv') ⟨rfl, rfl, rfl, rfl, rfl⟩) c
  exact ⟨h.2, h.1.2.2.2.2⟩

/-- **C149, refuted (4): handlers by pointer.** A pointer to a handler can be registered, and calls to it get a
session, in which no function ever runs. -/
theorem C149_by_pointer (cv sv : Version) (es : List Ev) (c : Call) (hp : PlainNames es c) (h : Handler)
    (hr : Reaches es c h) (hb : h.byPointer = true) (hn : opens es < 2 ^ 32 - 1) :
    ∃ sid, (((World.new cv sv).run es).open c).2 = .session sid ∧
      (((World.new cv sv).run es).open c).1.srv.ran = ((World.new cv sv).run es).srv.ran ++ [⟨sid, none, none⟩] := by
  have hinv := opening_inv cv sv es
  generalize (World.new cv sv).run es = w at hinv
  have hl := opening_lookup hinv hp
  obtain ⟨k, h1, h2, _⟩ := hinv.next
  obtain ⟨r1, r2, r3⟩ := hr
  rw [r2] at hl
  have hd : w.srv.draining = false := by
    cases hd : w.srv.draining with
    | false => rfl
    | true => exact absurd (hinv.drain.1 hd) r1
  have hne : w.srv.next ≠ 0 := by
    intro e; rw [h2] at e; have := congrArg UInt32.toNat e; rw [UInt32.toNat_ofNat'] at this; simp at this; omega
  refine ⟨w.srv.next, ?_, ?_⟩
  · simp [World.open, World.answer, World.openMsg, Srv.handleOpen, hd, hl, r3, ackResult, Srv.ack, hne]
  · simp [World.open, World.openMsg, Srv.handleOpen, hd, hl, r3, dispatch, hb]

/-- **C149, refuted (5): the wrong handler.** A handler registered for package `a`, service `b/s` also serves calls of
package `a/b`, service `s`, which is not registered. -/
theorem C149_wrong_handler (cv sv : Version) (a b s call : Str) (h : Handler) (hb : h.byPointer = false) (md : Md) :
    ∃ sid, (((World.new cv sv).run [.register ⟨a, b ++ lit "/" ++ s, call, h⟩]).open
        ⟨a ++ lit "/" ++ b, s, call, h.kind, md⟩).2 = .session sid ∧
      (((World.new cv sv).run [.register ⟨a, b ++ lit "/" ++ s, call, h⟩]).open
        ⟨a ++ lit "/" ++ b, s, call, h.kind, md⟩).1.srv.ran.map Ran.fn = [some h.fn] := by
  have hl : Registry.lookup (Registry.register Registry.new a (b ++ lit "/" ++ s) call h).1 (a ++ lit "/" ++ b) s call
      = some h := by
    simp [Registry.lookup, Registry.register, Registry.new, Registry.State.find, Registry.makeKey, List.append_assoc]
  refine ⟨1, ?_, ?_⟩
  · simp only [World.open, World.answer, World.openMsg, Srv.handleOpen, World.run, World.step, World.new, hl]
    simp [ackResult, Srv.ack]
  · simp only [World.open, World.openMsg, Srv.handleOpen, World.run, World.step, World.new, hl]
    simp only [dispatch, hb]
    cases h.kind <;> simp

theorem run_opens (w : World) (c : Call) (h : Handler) (hd : w.srv.draining = false)
    (hl : Registry.lookup w.srv.reg c.pkg c.service c.call = some h) (hk : h.kind = c.kind) (n : Nat) :
    (w.run (List.replicate n (.open c))).srv.draining = false ∧
    (w.run (List.replicate n (.open c))).srv.reg = w.srv.reg ∧
    (w.run (List.replicate n (.open c))).srv.next = w.srv.next + UInt32.ofNat n := by
  induction n generalizing w with
  | zero => exact ⟨hd, rfl, by simp [World.run]⟩
  | succ n ih =>
    rw [List.replicate_succ]
    have hs : (w.step (.open c)).srv.draining = false ∧ (w.step (.open c)).srv.reg = w.srv.reg ∧
        (w.step (.open c)).srv.next = w.srv.next + 1 := by
      simp [World.step, World.open, World.openMsg, Srv.handleOpen, hd, hl, hk]
    obtain ⟨k1, k2, k3⟩ := ih (w.step (.open c)) hs.1 (by rw [hs.2.1]; exact hl)
    refine ⟨k1, k2.trans hs.2.1, ?_⟩
    rw [World.run, k3, hs.2.2, Nat.add_comm n 1, UInt32.ofNat_add, UInt32.add_assoc]; rfl

/-- **C149, refuted (6): the counter.** After 2^32 - 1 sessions on a connection the next call is told that it was
rejected while its handler runs. -/
theorem C149_wrap (cv sv : Version) (c : Call) (fn n : Nat) (hn : n + 1 = 2 ^ 32) :
    let es := Ev.register ⟨c.pkg, c.service, c.call, ⟨c.kind, fn, false⟩⟩ :: List.replicate n (.open c)
    (((World.new cv sv).run es).open c).2 = .failed errUnavailable (lit "session open rejected by server") ∧
    ∃ x, (((World.new cv sv).run es).open c).1.srv.ran = ((World.new cv sv).run es).srv.ran ++ [x] ∧ x.fn = some fn := by
  intro es
  have hl0 : Registry.lookup ((World.new cv sv).step (.register ⟨c.pkg, c.service, c.call, ⟨c.kind, fn, false⟩⟩)).srv.reg
      c.pkg c.service c.call = some ⟨c.kind, fn, false⟩ := by
    simp [World.step, World.new, Registry.lookup, Registry.register, Registry.new, Registry.State.find]
  obtain ⟨k1, k2, k3⟩ := run_opens ((World.new cv sv).step (.register ⟨c.pkg, c.service, c.call, ⟨c.kind, fn, false⟩⟩))
    c ⟨c.kind, fn, false⟩ rfl hl0 rfl n
  have hes : (World.new cv sv).run es = ((World.new cv sv).step (.register ⟨c.pkg, c.service, c.call, ⟨c.kind, fn, false⟩⟩)).run
    (List.replicate n (.open c)) := rfl
  rw [← hes] at k1 k2 k3
  rw [← k2] at hl0
  have k3 : ((World.new cv sv).run es).srv.next = 0 := by
    rw [k3]
    show (1 : UInt32) + UInt32.ofNat n = 0
    have : UInt32.ofNat (1 + n) = 0 := by
      rw [Nat.add_comm, hn]; rfl
    rw [UInt32.ofNat_add] at this; exact this
  generalize (World.new cv sv).run es = w at k1 hl0 k3
  constructor
  · simp [World.open, World.answer, World.openMsg, Srv.handleOpen, k1, hl0, ackResult, Srv.ack, k3]
  · refine ⟨dispatch w.srv.next ⟨c.kind, fn, false⟩ c.md, ?_, ?_⟩
    · simp [World.open, World.openMsg, Srv.handleOpen, k1, hl0]
    · simp only [dispatch]; cases c.kind <;> rfl

/-! ### The hypotheses are met -/

def demoReg : List Ev :=
  [.register ⟨lit "p", lit "s", lit "get", ⟨.sync, 1, false⟩⟩, .register ⟨lit "p", lit "s", lit "get", ⟨.sync, 2, false⟩⟩,
    .register ⟨lit "p", lit "s", lit "chat", ⟨.biDir, 3, false⟩⟩]

def demoGet : Call := ⟨lit "p", lit "s", lit "get", .sync, [(lit "user", [7])]⟩

theorem demo_plain (k : Kind) (call : Str) (md : Md) : PlainNames demoReg ⟨lit "p", lit "s", call, k, md⟩ := by
  refine ⟨?_, (by unfold Registry.Plain; decide : Registry.Plain (lit "p") (lit "s"))⟩
  intro r hr
  simp only [demoReg, regsOf, List.mem_cons, List.not_mem_nil, or_false] at hr
  rcases hr with rfl | rfl | rfl <;> (unfold Registry.Plain; decide)

theorem demo_reaches : Reaches demoReg demoGet ⟨.sync, 1, false⟩ := by
  refine ⟨by simp [Drained, demoReg], by decide, rfl⟩

example (cv sv : Version) := (C149_reach_partial cv sv demoReg demoGet (demo_plain ..)
  (by decide) (by decide)).1 _ demo_reaches

/-- A method that is not registered, and one called as the wrong kind. -/
example (cv sv : Version) := C149_reason_lost cv sv demoReg { demoGet with call := lit "put" } (demo_plain ..)
  (by
    rintro h ⟨_, h2, _⟩
    have h2 : Registry.firstFor (regsOf demoReg) (lit "p") (lit "s") (lit "put") = some h := h2
    rw [show Registry.firstFor (regsOf demoReg) (lit "p") (lit "s") (lit "put") = none by decide] at h2
    cases h2)

example (cv sv : Version) := C149_stream_metadata_lost cv sv demoReg ⟨lit "p", lit "s", lit "chat", .biDir, []⟩
  [(lit "user", [7])] (by decide)

example (cv sv : Version) := C149_wrap cv sv demoGet 1 4294967295 (by decide)

example (cv sv : Version) := C149_by_pointer cv sv [.register ⟨lit "p", lit "s", lit "get", ⟨.sync, 1, true⟩⟩] demoGet
  ⟨by intro r hr; simp only [regsOf, List.mem_singleton] at hr; subst hr; unfold Registry.Plain; decide,
    by unfold Registry.Plain; decide⟩
  ⟨.sync, 1, true⟩ ⟨by simp [Drained], by decide, rfl⟩ rfl (by decide)

end Claw.Opening
