import Verif.Lemmas.DecodedList

/-!
# C147: do lists of structs and their items reach the encoded message?

`runSOps ops` is a client program over a struct with lists of structs; `SAbs.steps` says what it does in terms of
records. The claim of C147 is false. `C147_exact` says what happens when the lists are empty at the start,
`C147_reach_partial` that up to the first `Marshal` all edits arrive, also those of items made after the item was
appended, `C147_lost` that after it no edit of these lists and items arrives; the others are about decoded lists,
whose items are views of the message.
-/

namespace Claw

set_option linter.unusedSimpArgs false

theorem ssteps_length (ops : List SOp) : ∀ A : SAbs, (A.steps ops).fields.length = A.fields.length := by
  induction ops with
  | nil => intro A; rfl
  | cons op ops ih =>
    intro A
    rw [SAbs.steps, ih]
    cases op with
    | call op => simp [SAbs.step, spec_length]
    | clear => simp [SAbs.step]
    | marshal => exact SAbs.flushed_length A _
    | _ => rfl

theorem ssteps_append (ops ops' : List SOp) : ∀ A : SAbs, A.steps (ops ++ ops') = (A.steps ops).steps ops' := by
  induction ops with
  | nil => intro A; rfl
  | cons op ops ih => intro A; exact ih _

theorem sfits_append {isL : Nat → Bool} (ops ops' : List SOp) : ∀ A : SAbs,
    SFits isL A (ops ++ ops') ↔ SFits isL A ops ∧ SFits isL (A.steps ops) ops' := by
  induction ops with
  | nil => intro A; simp [SFits, SAbs.steps]
  | cons op ops ih => intro A; simp only [List.cons_append, SFits, ih, SAbs.steps, and_assoc]

/-- **C147, exactly.** When the lists of structs are empty at the start, every program runs without panic and the
next `Marshal` encodes the specified record. -/
theorem C147_exact {m : Nat} {r : List Val} {s : St} (hb : Begins m r s) (hm : m ≤ 65536) {isL : Nat → Bool}
    (hL : ∀ fn, isL fn = true → r.getD fn .absent = .absent) (ops : List SOp)
    (hf : SFits isL (SAbs.start r) (ops ++ [.marshal])) :
    ∃ L msg L', runSOps ops (SSt.ofSt s) = .ok L ∧ L.marshal = .ok (msg, L') ∧
      ∀ tys : List Ty, tys.length = m → FieldsHaveTy ((SAbs.start r).steps ops).encoded tys →
        Decodes tys msg (viewFields tys ((SAbs.start r).steps ops).encoded) := by
  rw [sfits_append] at hf
  obtain ⟨L, e1, h1⟩ := sruns_ok ops (sbegins_inv hb hm hL) hf.1
  obtain ⟨msg, L', e2, h2, e3⟩ := smarshal_ok h1 hf.2.1
  refine ⟨L, msg, L', e1, e2, fun tys htl htys => ?_⟩
  subst e3
  have hlen : ((SAbs.start r).steps ops).encoded.length = m := by
    rw [SAbs.encoded, SAbs.flushed_length, ssteps_length]
    exact (begins_rep hb hm).2.2.1
  exact decodes_of (by omega) h2.canon (hf.2.1 _) htys

/-- **C147, index.** Replacing an item that is not there panics, whatever was done before. -/
theorem C147_put_panics {m : Nat} {r : List Val} {s : St} (hb : Begins m r s) (hm : m ≤ 65536) {isL : Nat → Bool}
    (hL : ∀ fn, isL fn = true → r.getD fn .absent = .absent) (ops : List SOp) (hf : SFits isL (SAbs.start r) ops)
    {fn : Nat} (hfn : fn < m) (hl : isL fn = true) (k j id : Nat)
    (hj : (((SAbs.start r).steps ops).touch fn).items.length ≤ j) :
    ∃ L, runSOps ops (SSt.ofSt s) = .ok L ∧ SOp.run L (.put fn k j id) = .panic := by
  obtain ⟨L, e1, h1⟩ := sruns_ok ops (sbegins_inv hb hm hL) hf
  obtain ⟨o, L', e2, _, e3⟩ := saccess_ok h1 (fn := fn) (by
    rw [ssteps_length]
    have := (begins_rep hb hm).2.2.1
    simp only [SAbs.start]; omega) hl k
  refine ⟨L, e1, ?_⟩
  simp only [SOp.run, SSt.edit, e2, Res.ok_bind, e3.items]
  rw [if_neg (by omega)]

/-- Up to the first `Marshal` every list that was touched is live. -/
theorem all_live (ops : List SOp) : ∀ A : SAbs, SOp.marshal ∉ ops → (∀ fn s, A.shown fn = some s → s.live = true) →
    ∀ fn s, (A.steps ops).shown fn = some s → s.live = true := by
  induction ops with
  | nil => intro A _ h; exact h
  | cons op ops ih =>
    intro A hn h
    simp only [List.mem_cons, not_or] at hn
    refine ih _ hn.2 ?_
    have htouch : ∀ fn, (A.touch fn).live = true := by
      intro fn
      simp only [SAbs.touch]
      cases hs : A.shown fn with
      | none => rfl
      | some s => exact h fn s hs
    have hset : ∀ (fn : Nat) (t : SShown), t.live = true →
        ∀ fn' s, (A.setShown fn (some t)).shown fn' = some s → s.live = true := by
      intro fn t ht fn' s hs
      simp only [SAbs.setShown] at hs
      by_cases hi : fn' = fn
      · simp only [hi, if_true, Option.some.injEq] at hs; subst hs; exact ht
      · simp only [hi, if_false] at hs; exact h _ _ hs
    match op with
    | .call _ => exact h
    | .make _ => exact h
    | .item _ _ => exact h
    | .touch fn _ => exact hset fn _ (htouch fn)
    | .append fn _ _ => exact hset fn _ (htouch fn)
    | .put fn _ _ _ => exact hset fn _ (htouch fn)
    | .setAll fn _ _ => exact hset fn _ (htouch fn)
    | .clear fn =>
      intro fn' s hs
      simp only [SAbs.step, SAbs.setShown] at hs
      by_cases hi : fn' = fn
      · simp [hi] at hs
      · simp only [hi, if_false] at hs; exact h _ _ hs
    | .marshal => simp at hn

/-- **C147, partial.** Up to the first `Marshal`, and when the lists are empty at the start, the message has the items
of every list as they are when it is written: appended, put, replaced, or edited after that. Missing: edits after
`Marshal` (`C147_lost`) and lists that were decoded (`C147_decoded_grow_last` and the following). -/
theorem C147_reach_partial {m : Nat} {r : List Val} {s : St} (hb : Begins m r s) (hm : m ≤ 65536) {isL : Nat → Bool}
    (hL : ∀ fn, isL fn = true → r.getD fn .absent = .absent) (ops : List SOp) (hn : SOp.marshal ∉ ops)
    (hf : SFits isL (SAbs.start r) (ops ++ [.marshal])) :
    ∃ L msg L', runSOps ops (SSt.ofSt s) = .ok L ∧ L.marshal = .ok (msg, L') ∧
      ∀ tys : List Ty, tys.length = m → FieldsHaveTy ((SAbs.start r).steps ops).current tys →
        Decodes tys msg (viewFields tys ((SAbs.start r).steps ops).current) := by
  have hlive := all_live ops (SAbs.start r) hn (by simp [SAbs.start])
  have : ((SAbs.start r).steps ops).current = ((SAbs.start r).steps ops).encoded := by
    generalize (SAbs.start r).steps ops = A at hlive
    simp only [SAbs.current, SAbs.encoded, SAbs.flushed, if_true]
    congr 1
    funext i x
    cases hs : A.shown i with
    | none => rfl
    | some sh =>
      have := hlive i sh hs
      obtain ⟨l, it⟩ := sh
      simp only at this
      subst this
      rfl
  rw [this]
  exact C147_exact hb hm hL ops hf

/-- Lists that are not live stay so, and do not count. -/
theorem edits_lost (was : Nat → Bool) (ops : List SOp) : ∀ A : SAbs, (∀ op ∈ ops, op.Edits was) →
    (∀ fn, was fn = true → (A.shown fn).isSome) → (∀ fn s, A.shown fn = some s → s.live = false) →
    (A.steps ops).encoded = A.fields := by
  have base : ∀ A : SAbs, (∀ fn s, A.shown fn = some s → s.live = false) → A.encoded = A.fields := by
    intro A h
    apply List.ext_getElem?
    intro i
    simp only [SAbs.encoded, SAbs.flushed, List.getElem?_mapIdx]
    cases A.fields[i]? <;> simp
    cases hs : A.shown i with
    | none => rfl
    | some s =>
      have := h i s hs
      obtain ⟨l, it⟩ := s
      simp only at this
      subst this
      rfl
  induction ops with
  | nil => intro A _ _ h; exact base A h
  | cons op ops ih =>
    intro A he hw h
    have he' : ∀ op ∈ ops, op.Edits was := fun o ho => he o (by simp [ho])
    have hset : ∀ (fn : Nat) (items : List Nat), was fn = true →
        ((A.setShown fn (some ⟨(A.touch fn).live, items⟩)).steps ops).encoded = A.fields := by
      intro fn items hwf
      have hlv : (A.touch fn).live = false := by
        have := hw fn hwf
        simp only [SAbs.touch]
        cases hs : A.shown fn with
        | none => rw [hs] at this; simp at this
        | some s => exact h fn s hs
      refine ih (A.setShown fn _) he' (fun fn' h' => ?_) fun fn' s hs => ?_
      · simp only [SAbs.setShown]
        by_cases hi : fn' = fn
        · simp [hi]
        · simp only [hi, if_false]; exact hw fn' h'
      · simp only [SAbs.setShown] at hs
        by_cases hi : fn' = fn
        · simp only [hi, if_true, Option.some.injEq] at hs; subst hs; exact hlv
        · simp only [hi, if_false] at hs; exact h _ _ hs
    have h0 := he op (by simp)
    match op with
    | .make _ => exact ih _ he' hw h
    | .item _ _ => exact ih _ he' hw h
    | .touch fn _ => exact hset fn _ h0
    | .append fn _ _ => exact hset fn _ h0
    | .put fn _ _ _ => exact hset fn _ h0
    | .setAll fn _ _ => exact hset fn _ h0
    | .call _ => exact h0.elim
    | .clear _ => exact h0.elim
    | .marshal => exact h0.elim

/-- **C147, refuted after `Marshal`.** Whatever is then done to the lists that were touched and to any struct that was
made, the next message is the same, byte for byte. -/
theorem C147_lost {m : Nat} {r : List Val} {s : St} (hb : Begins m r s) (hm : m ≤ 65536) {isL : Nat → Bool}
    (hL : ∀ fn, isL fn = true → r.getD fn .absent = .absent) (ops ops' : List SOp)
    (he : ∀ op ∈ ops', op.Edits fun fn => (((SAbs.start r).steps ops).shown fn).isSome)
    (hf : SFits isL (SAbs.start r) (ops ++ .marshal :: ops' ++ [.marshal])) :
    ∃ L L' L'' L''' msg, runSOps ops (SSt.ofSt s) = .ok L ∧ L.marshal = .ok (msg, L') ∧ runSOps ops' L' = .ok L'' ∧
      L''.marshal = .ok (msg, L''') := by
  rw [List.append_assoc, sfits_append] at hf
  obtain ⟨f1, f2, f3⟩ := hf
  have f3 := (sfits_append ops' [.marshal] _).1 f3
  obtain ⟨L, e1, h1⟩ := sruns_ok ops (sbegins_inv hb hm hL) f1
  obtain ⟨msg, L', e2, h2, e3⟩ := smarshal_ok h1 f2
  obtain ⟨L'', e4, h4⟩ := sruns_ok ops' h2 f3.1
  obtain ⟨msg', L''', e5, _, e6⟩ := smarshal_ok h4 f3.2.1
  have := edits_lost _ ops' (((SAbs.start r).steps ops).step .marshal) he
    (by intro fn h; simpa [SAbs.step] using h) (by
      intro fn s hs
      simp only [SAbs.step, Option.map_eq_some_iff] at hs
      obtain ⟨a, _, rfl⟩ := hs
      rfl)
  rw [this] at e6
  refine ⟨L, L', L'', L''', msg, e1, e2, e4, ?_⟩
  rw [e5, e6, e3]
  rfl

/-- **C147 for decoded lists, partial.** A list that is in the message (decoded, or set as a field) and was not touched yet:
structs appended, put in the place of an item, or set instead of all items, are in the next message together with the
items that are left. Missing: other lists that are pending (`C147_decoded_two_lists`) and edits of the items and of
the parent between the touch of the list and `Marshal`. -/
theorem C147_decoded_edit_partial {m : Nat} {r : List Val} {s : St} (hb : Begins m r s) (hm : m ≤ 65536) {isL : Nat → Bool}
    (hL : ∀ fn, isL fn = true → r.getD fn .absent = .absent) (ops : List SOp) (hf : SFits isL (SAbs.start r) ops)
    (hq : ∀ fn s, ((SAbs.start r).steps ops).shown fn = some s → s.live = false)
    {fn : Nat} (hfn : fn < m) (hno : isL fn = false) {olds : List (List Val)}
    (hv : ((SAbs.start r).steps ops).fields.getD fn .absent = .structs olds) {op : SOp} {new : List (List Val)}
    (hop : ((SAbs.start r).steps ops).Replaces fn olds op new)
    (hs : 8 + sizes (((SAbs.start r).steps ops).fields.set fn (specStructs new)) < 2 ^ 32) :
    ∃ L L1 msg L2, runSOps ops (SSt.ofSt s) = .ok L ∧ op.run L = .ok L1 ∧ L1.marshal = .ok (msg, L2) ∧
      ∀ tys : List Ty, tys.length = m →
        FieldsHaveTy (((SAbs.start r).steps ops).fields.set fn (specStructs new)) tys →
        Decodes tys msg (viewFields tys (((SAbs.start r).steps ops).fields.set fn (specStructs new))) := by
  obtain ⟨L, e1, h1⟩ := sruns_ok ops (sbegins_inv hb hm hL) hf
  have hlen : ((SAbs.start r).steps ops).fields.length = m := by
    rw [ssteps_length]; exact (begins_rep hb hm).2.2.1
  obtain ⟨L1, L2, e2, e3, e4⟩ := decoded_edit h1 hq (by rw [hlen]; exact hfn) hno hv hop hs
  exact ⟨L, L1, _, L2, e1, e2, e3, fun tys _ htys => decodes_of (by simp; omega) e4 hs htys⟩

/-- A schema with a uint8 and a list of structs of two uint8; the second struct is edited after it was appended. -/
def demoSOps : List SOp :=
  [.make 2, .make 2, .item 0 (.set 0 .u8 7), .call (.set 0 .u8 5), .append 1 2 [0, 1], .item 1 (.set 0 .u8 9)]

def demoIsL : Nat → Bool := fun fn => fn == 1

theorem demo_sfits : SFits demoIsL (SAbs.start (List.replicate 2 .absent)) (demoSOps ++ [.marshal]) := by
  simp only [demoSOps, List.cons_append, List.nil_append, SFits]
  refine ⟨(by decide : 2 ≤ 65536), (by decide : 2 ≤ 65536), ⟨by decide, ⟨by decide, by simp [STy.Clean, STy.Storable]⟩, by decide⟩,
    ⟨⟨by decide, by simp [STy.Clean, STy.Storable]⟩, by simp [Op.field, demoIsL], by decide⟩,
    ⟨by decide, rfl, by decide⟩, ⟨by decide, ⟨by decide, by simp [STy.Clean, STy.Storable]⟩, by decide⟩, ?_, trivial⟩
  intro p
  simp [SAbs.flushed, SAbs.step, SAbs.setShown, SAbs.touch, SAbs.start, Op.spec, List.mapIdx_cons, sizes,
    specScalar, STy.isZero, Val.isAbsent, SAbs.now, SAbs.record, specStructs]
  cases p 1 <;> simp +decide

example (s : St) (h : St.new 2 = .ok s) := C147_exact (.created h) (by decide) (isL := demoIsL)
  (by intro fn _; simp; rcases fn with _ | _ | _ <;> rfl) demoSOps demo_sfits

example (s : St) (h : St.new 2 = .ok s) := C147_reach_partial (.created h) (by decide) (isL := demoIsL)
  (by intro fn _; simp; rcases fn with _ | _ | _ <;> rfl) demoSOps (by simp [demoSOps]) demo_sfits

example (s : St) (h : St.new 2 = .ok s) := C147_put_panics (.created h) (by decide) (isL := demoIsL)
  (by intro fn _; simp; rcases fn with _ | _ | _ <;> rfl) demoSOps ((sfits_append _ _ _).1 demo_sfits).1
  (fn := 1) (by decide) rfl 2 2 0 (by decide)

/-- After a `Marshal` an item is edited, the list is cut and the edited item appended twice. -/
def demoLost : List SOp := [.item 0 (.set 1 .u8 3), .setAll 1 2 [1], .append 1 2 [0, 0]]

theorem demo_lost_fits : SFits demoIsL (SAbs.start (List.replicate 2 .absent))
    (demoSOps ++ .marshal :: demoLost ++ [.marshal]) := by
  rw [List.append_assoc, show (SOp.marshal :: demoLost ++ [SOp.marshal]) = [.marshal] ++ (demoLost ++ [.marshal]) from rfl,
    ← List.append_assoc, sfits_append]
  refine ⟨demo_sfits, ?_⟩
  simp only [demoLost, List.cons_append, List.nil_append, SFits]
  refine ⟨⟨by decide, ⟨by decide, by simp [STy.Clean, STy.Storable]⟩, by decide⟩, ⟨by decide, rfl, by decide⟩,
    ⟨by decide, rfl, by decide⟩, ?_, trivial⟩
  intro p
  simp [SAbs.flushed, SAbs.step, SAbs.steps, SAbs.setShown, SAbs.touch, SAbs.start, Op.spec, List.mapIdx_cons, sizes,
    specScalar, STy.isZero, Val.isAbsent, SAbs.now, SAbs.record, specStructs, SAbs.encoded, demoSOps]
  decide

example (s : St) (h : St.new 2 = .ok s) := C147_lost (.created h) (by decide) (isL := demoIsL)
  (by intro fn _; simp; rcases fn with _ | _ | _ <;> rfl) demoSOps demoLost
  (by
    simp only [demoLost, List.mem_cons, List.not_mem_nil, or_false]
    rintro op (rfl | rfl | rfl) <;> first | trivial | rfl)
  demo_lost_fits

/-- The message of a run. -/
def smessage (s : St) (ops : List SOp) : Res Bytes := do
  let L ← runSOps ops (SSt.ofSt s)
  let (msg, _) ← L.marshal
  return msg

/-- The struct decoded from the message of `demoSOps`. -/
def decodedDemo : Res St := do
  let w ← St.new 2
  let msg ← smessage w demoSOps
  let f ← St.new 2
  match f.unmarshal msg [] with
  | none => .panic
  | some s => .ok s

/-- The message of a run on that struct. -/
def afterDemo (ops : List SOp) : Res Bytes := do
  let s ← decodedDemo
  smessage s ops

/-- The second field of item `i` after a run on that struct. -/
def itemDemo (ops : List SOp) (i : Nat) : Option Nat :=
  let go : Res UInt8 := do
    let s ← decodedDemo
    let L ← runSOps ops (SSt.ofSt s)
    match L.pool[i]? with
    | none => .panic
    | some c => STy.u8.get c.1 1
  match go with
  | .ok x => some x.toNat
  | _ => none

/-- What a reader sees in a message: the uint8, and the two fields of each item. -/
def readDemo (r : Res Bytes) : Option (Nat × List (Nat × Nat)) :=
  let go : Res (Nat × List (Nat × Nat)) := do
    let msg ← r
    let f ← St.new 2
    match f.unmarshal msg [] with
    | none => .panic
    | some s => do
      let a ← STy.u8.get s 0
      let cs ← getListStructs s 1 2
      let items ← (cs.getD []).mapM fun c => do
        let x ← STy.u8.get c 0
        let y ← STy.u8.get c 1
        return (UInt8.toNat x, UInt8.toNat y)
      return (UInt8.toNat a, items)
  match go with
  | .ok x => some x
  | _ => none

/-- The message of `demoSOps` has both items. -/
example : readDemo (afterDemo []) = some (5, [(7, 0), (9, 0)]) := by decide +kernel

/-- **C147, refuted for decoded lists.** A second field is set in the last item of a decoded list, which is read back
from the item, and is not in the message. -/
theorem C147_decoded_grow_last :
    itemDemo [.touch 1 2, .item 1 (.set 1 .u8 3)] 1 = some 3 ∧
    readDemo (afterDemo [.touch 1 2, .item 1 (.set 1 .u8 3)]) = some (5, [(7, 0), (9, 0)]) := by decide +kernel

/-- Set in the first item, it reaches the message, and the second item is gone. -/
theorem C147_decoded_grow_first :
    readDemo (afterDemo [.touch 1 2, .item 0 (.set 1 .u8 3)]) = some (5, [(7, 3)]) := by decide +kernel

/-- A field that is there already is overwritten in the message of the parent. -/
theorem C147_decoded_same_size :
    readDemo (afterDemo [.touch 1 2, .item 0 (.set 0 .u8 3)]) = some (5, [(3, 0), (9, 0)]) := by decide +kernel

/-- Clearing another field of the parent moves the bytes below the items: after an append the list is written with
what is now at their places. -/
theorem C147_decoded_clear :
    readDemo (afterDemo [.touch 1 2, .call (.clear 0), .make 2, .append 1 2 [2]]) = some (0, []) := by decide +kernel

/-- Without that, appending to a decoded list works. -/
example : readDemo (afterDemo [.make 2, .item 0 (.set 1 .u8 3), .append 1 2 [0]]) = some (5, [(7, 0), (9, 0), (0, 3)]) := by
  decide +kernel

/-- A list that was set as a field, and to which a struct is appended. -/
example (s : St) (h : St.new 2 = .ok s) := C147_decoded_edit_partial (.created h) (by decide) (isL := fun _ => false)
  (by simp) [.call (.nestList 1 2 [[.set 0 .u8 7], [.set 1 .u8 9]]), .make 2, .item 0 (.set 0 .u8 3)]
  ⟨⟨(by simp [Op.Fits, FitsItems, FitsFrom, SAbs.start, STy.Clean, STy.Storable]; decide), by simp, by decide⟩, (by decide : 2 ≤ 65536),
    ⟨by decide, ⟨by decide, by simp [STy.Clean, STy.Storable]⟩, by decide⟩, trivial⟩
  (by simp [SAbs.start, SAbs.steps, SAbs.step]) (fn := 1) (by decide) rfl rfl
  (.append 2 [0] (by decide)) (by decide)

/-- **C147, refuted for two decoded lists.** The first list is emptied and a struct appended to the second: writing the
first moves the bytes below the items of the second. -/
theorem C147_decoded_two_lists :
    (match (do
        let w ← St.new 2
        let msg ← smessage w [.make 1, .item 0 (.set 0 .u8 7), .make 1, .item 1 (.set 0 .u8 9), .append 0 1 [0], .append 1 1 [1, 0]]
        let f ← St.new 2
        match f.unmarshal msg [] with
        | none => .panic
        | some s => do
          let msg ← smessage s [.make 1, .item 0 (.set 0 .u8 3), .setAll 0 1 [], .append 1 1 [0]]
          let f ← St.new 2
          match f.unmarshal msg [] with
          | none => .panic
          | some s => do
            let cs ← getListStructs s 1 1
            (cs.getD []).mapM fun c => STy.u8.get c 0 : Res (List UInt8)) with
      | .ok xs => some (xs.map UInt8.toNat)
      | _ => none) = some [] := by decide +kernel

/-- The bytes of the second struct of `demoSOps`, when it is marshalled by itself after `ops`. -/
def itemAlone (ops : List SOp) : Option (List Nat) :=
  let go : Res Bytes := do
    let s ← St.new 2
    let L ← runSOps ops (SSt.ofSt s)
    match L.pool[1]? with
    | none => .panic
    | some c => do
      let (msg, _) ← c.1.marshal
      return msg
  match go with
  | .ok b => some (b.map fun (c : UInt8) => c.toNat)
  | _ => none

/-- Encoding the parent changes the item: it keeps its index as the number in its header, and its own message is
another one than before. -/
theorem C147_item_header :
    itemAlone demoSOps = some [0, 0, 14, 16, 0, 0, 0, 0, 0, 0, 6, 9, 0, 0, 0, 0] ∧
    itemAlone (demoSOps ++ [.marshal]) = some [1, 0, 14, 16, 0, 0, 0, 0, 0, 0, 6, 9, 0, 0, 0, 0] := by decide +kernel

end Claw
