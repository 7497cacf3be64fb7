import Verif.Lemmas.ListCache

/-!
# C18: do list edits reach the encoded message?

`runLOps ops` is a client program over a struct with list objects; `LAbs.steps` says what it does in
terms of a record and of lists that are *live* (created since the last `Marshal` for a field that was
empty) or not. The claim of C18 is false; `C18_exact` says exactly what happens,
`C18_edit_after_marshal_lost` and `C18_edit_of_decoded_lost` that edits of lists that are not live never
reach the message, `C18_edits_reach_message_partial` that all others do.
-/

namespace Claw

/-- How a client gets a struct: it creates one, or it decodes the message of another program. -/
inductive Begins (m : Nat) : List Val → St → Prop
  | created {s : St} : St.new m = .ok s → Begins m (List.replicate m .absent) s
  | decoded {pre : List Op} {w w' f s : St} {msg extra : Bytes} : Fits m pre → run m pre = .ok w →
      w.marshal = .ok (msg, w') → St.new m = .ok f → f.unmarshal msg extra = some s →
      Begins m (specRun m pre) s

/-- The list fields of a record have the types of the schema. -/
def ListsTyped (lists : Nat → Option STy) (r : List Val) : Prop :=
  ∀ fn t, lists fn = some t → r.getD fn .absent = .absent ∨ ∃ v, r.getD fn .absent = .scalar t v

theorem begins_inv {m : Nat} {r : List Val} {s : St} (h : Begins m r s) (hm : m ≤ 65536)
    {lists : Nat → Option STy} (hty : ListsTyped lists r) :
    LInv lists (LSt.ofSt s) ⟨r, fun _ => none⟩ ∧ r.length = m := by
  have mk : ∀ (r : List Val) (s : St), ListsTyped lists r → Rep 0 s (encs r 0) → s.idx.length = m → r.length = m →
      Canons r → s.isSetEnabled = false → s.recording = false →
      LInv lists (LSt.ofSt s) ⟨r, fun _ => none⟩ ∧ r.length = m := by
    intro r s hty h1 h2 h3 h4 h5 h6
    exact ⟨⟨h1, by simp only [LSt.ofSt]; omega, by show r.length ≤ _; omega, h4, ⟨h5, h6⟩, hty, fun _ _ => rfl,
      fun _ _ h => by simp at h, by simp [LSt.ofSt], by simp [LSt.ofSt]⟩, h3⟩
  cases h with
  | created hn =>
    obtain ⟨s0, h0, hr, hl, he, hrec, _⟩ := new_rep m
    rw [hn] at h0
    have h0 := Res.ok.inj h0
    subst h0
    exact mk _ _ hty hr hl (by simp) (canons_replicate m) he hrec
  | @decoded pre w w' f s msg extra hfit hw hmar hf hun =>
    obtain ⟨s0, h0, hr, hl, he, hrec, _⟩ := new_rep m
    obtain ⟨s1, h1, h2, h3, h4⟩ := ops_rep pre hr (by simp [hl]) (by simpa using hfit.1)
      (canons_replicate m) (by rw [hl]; exact hfit.2)
    have hrun : run m pre = .ok s1 := by simp [run, h0, h1]
    rw [hw] at hrun
    have hrun := Res.ok.inj hrun
    subst hrun
    have hen : w.isSetEnabled = false := by rw [h3.enabled, he]
    rw [marshal_rep h2 hen] at hmar
    have hmar := Res.ok.inj hmar
    simp only [Prod.mk.injEq] at hmar
    obtain ⟨rfl, rfl⟩ := hmar
    rw [hf] at h0
    have h0 := Res.ok.inj h0
    subst h0
    have hvl : (specRun m pre).length = m := by simp [specRun, specOps_length]
    obtain ⟨s', hu, hr', hl', he'⟩ := unmarshal_rep h2.wf h2.small 0 (by omega) f m hl
      (by intro i hi _; have e := new_eq m; rw [hf] at e; simp at e; rw [e]; simp [hi]) [] extra
    rw [List.append_nil, hun] at hu
    have hu := Option.some.inj hu
    subst hu
    rw [padTo_self (by rw [encs_length]; show m ≤ (specRun m pre).length; omega)] at hr'
    refine mk _ _ hty hr' hl' hvl h4 (by rw [he', he]) ?_
    simp only [St.unmarshal] at hun
    split at hun
    · simp at hun
    · split at hun
      · simp at hun
      · split at hun
        · simp at hun
        · split at hun
          · simp at hun
          · simp only [Option.some.injEq] at hun
            rw [← hun]; exact hrec

/-- What a fresh reader with schema `tys` sees in a message. -/
def Decodes (tys : List Ty) (msg : Bytes) (r : List Val) : Prop :=
  ∀ extra, ∃ f s, St.new tys.length = .ok f ∧ f.unmarshal msg extra = some s ∧ readFields tys s 0 = .ok r

theorem decodes_of {tys : List Ty} {r : List Val} (hm : r.length ≤ 65536)
    (hc : Canons r) (hs : 8 + sizes r < 2 ^ 32) (hty : FieldsHaveTy r tys) :
    Decodes tys (hdr 0 FTStruct (total (encs r 0)) ++ (encs r 0).flatten) (viewFields tys r) := by
  intro extra
  obtain ⟨s0, h0, hr, hl0, _⟩ := new_rep tys.length
  obtain ⟨s', hu, hr', hl', _⟩ := unmarshal_rep (encs_wf r hm (by omega) hc) (by rw [total_encs]; exact hs) 0 (by omega)
    s0 tys.length hl0
    (by intro i hi _; have e := new_eq tys.length; rw [h0] at e; simp at e; rw [e]; simp [hi]) [] extra
  rw [List.append_nil] at hu
  refine ⟨s0, s', h0, hu, ?_⟩
  have := read_fields tys hr' hc hm 0 (by omega) (by
    intro j ty hj; rw [Nat.zero_add]; exact hty.get j ty hj)
  rw [this, viewFields_eq_map]
  simp

theorem steps_length (ops : List LOp) : ∀ (A : LAbs), (A.steps ops).fields.length = A.fields.length := by
  induction ops with
  | nil => intro A; rfl
  | cons op ops ih =>
    intro A
    rw [LAbs.steps, ih]
    cases op with
    | call op => simp [LAbs.step, spec_length]
    | access => rfl
    | edit fn t g => simp only [LAbs.step]; split <;> rfl
    | clear => simp [LAbs.step]
    | marshal => exact flushed_length A _

/-- **C18, exactly.** Every program of list edits, accesses, clears, marshals and operations on other
fields runs without panic; the accessors show the specified items; and the next `Marshal` encodes the
specified record, which has the items of the live lists only. -/
theorem C18_exact {m : Nat} {r : List Val} {s : St} (hb : Begins m r s) (hm : m ≤ 65536)
    {lists : Nat → Option STy} (hty : ListsTyped lists r) (ops : List LOp)
    (hf : LFits lists ⟨r, fun _ => none⟩ (ops ++ [.marshal])) :
    ∃ L msg L', runLOps ops (LSt.ofSt s) = .ok L ∧ L.marshal = .ok (msg, L') ∧
      (∀ fn t, lists fn = some t → t.isList = true → fn < m →
        L.shows fn t = .ok (listIn t ((LAbs.steps ⟨r, fun _ => none⟩ ops).touch fn t).items)) ∧
      ∀ tys : List Ty, tys.length = m →
        FieldsHaveTy (LAbs.steps ⟨r, fun _ => none⟩ ops).encoded tys →
        Decodes tys msg (viewFields tys (LAbs.steps ⟨r, fun _ => none⟩ ops).encoded) := by
  have hsplit : ∀ (ops : List LOp) (A : LAbs), LFits lists A (ops ++ [.marshal]) →
      LFits lists A ops ∧ (∀ p, 8 + sizes ((A.steps ops).flushed p) < 2 ^ 32) := by
    intro ops
    induction ops with
    | nil => intro A h; exact ⟨trivial, h.1⟩
    | cons op ops ih => intro A h; obtain ⟨h1, h2⟩ := ih _ h.2; exact ⟨⟨h.1, h1⟩, h2⟩
  obtain ⟨hf1, hf2⟩ := hsplit ops _ hf
  obtain ⟨hinv, hlen⟩ := begins_inv hb hm hty
  obtain ⟨L, e1, h1⟩ := lops_inv ops hinv hf1
  obtain ⟨msg, L', e2, h2, hmsg⟩ := marshal_inv h1 hf2
  have hlen' : (LAbs.steps ⟨r, fun _ => none⟩ ops).fields.length = m := by
    rw [steps_length]; exact hlen
  refine ⟨L, msg, L', e1, e2, ?_, ?_⟩
  · intro fn t ht hl hfn
    obtain ⟨id, L1, v, d, k1, _, _, k4⟩ := access_inv h1 (by rw [hlen']; exact hfn) ht hl
    rw [k4.items, listIn_scalar]
    simp [LSt.shows, k1, k4.obj]
  · intro tys htl htys
    subst hmsg
    have hel : (LAbs.steps ⟨r, fun _ => none⟩ ops).encoded.length = m := by
      rw [LAbs.encoded, flushed_length, hlen']
    exact decodes_of (by omega) h2.canon (hf2 _) htys

/-- A schema with a list of int16, a list of bytes and a uint8, and a program that edits, clears,
marshals in between and edits again. -/
def demoLists : Nat → Option STy
  | 0 => some (.lnum .i16)
  | 1 => some .lbytes
  | _ => none

def demoLOps : List LOp :=
  [.edit 0 (.lnum .i16) (fun v => some (v ++ [1, 2])), .call (.set 2 .u8 9), .access 1 .lbytes, .marshal,
   .clear 0, .edit 0 (.lnum .i16) (fun v => some (v ++ [7])), .edit 0 (.lnum .i16) (fun v => some (v ++ [8]))]

theorem demo_lfits : LFits demoLists ⟨List.replicate 3 .absent, fun _ => none⟩ (demoLOps ++ [.marshal]) := by
  simp only [demoLOps, List.cons_append, List.nil_append, LFits]
  refine ⟨⟨by decide, rfl, rfl, _, rfl, by simp [STy.Clean, STy.Storable]⟩,
    ⟨⟨by decide, by simp [STy.Clean, STy.Storable]⟩, by simp [Op.field, demoLists], by decide⟩,
    ⟨by decide, rfl, rfl⟩, ?_, (by decide : 0 < 3), ⟨by decide, rfl, rfl, _, rfl, by simp [STy.Clean, STy.Storable]⟩,
    ⟨by decide, rfl, rfl, _, rfl, by simp [STy.Clean, STy.Storable]⟩, ?_, trivial⟩
  · intro p
    simp [LAbs.flushed, LAbs.step, LAbs.setShown, LAbs.touch, Op.spec, List.mapIdx_cons, sizes, stored,
      specScalar, STy.isZero, Val.isAbsent, listIn, STy.zero]
    cases p 0 <;> cases p 1 <;> simp +decide
  · intro p
    simp [LAbs.flushed, LAbs.step, LAbs.setShown, LAbs.touch, Op.spec, List.mapIdx_cons, sizes, stored,
      specScalar, STy.isZero, Val.isAbsent, listIn, STy.zero, LAbs.encoded]
    cases p 0 <;> simp +decide

theorem demo_connected : Connected ⟨List.replicate 3 .absent, fun _ => none⟩ demoLOps := by
  simp only [demoLOps, Connected]
  refine ⟨rfl, trivial, trivial, trivial, trivial, rfl, rfl, trivial⟩

example (s : St) (h : St.new 3 = .ok s) := C18_exact (.created h) (by decide)
  (lists := demoLists) (by intro fn t _; left; simp; rcases fn with _ | _ | _ | _ <;> rfl) demoLOps demo_lfits

/-- A list that is not live stays as it is in the record, whatever is edited. -/
theorem encoded_edit_detached (A : LAbs) (fn : Nat) (t : STy) (g : t.Val → Option t.Val)
    (h : (A.touch fn t).live = false) : (A.step (.edit fn t g)).encoded = A.encoded := by
  simp only [LAbs.step]
  split
  · apply List.ext_getElem?
    intro i
    simp only [LAbs.encoded, LAbs.flushed, List.getElem?_mapIdx, LAbs.setShown]
    by_cases hi : i = fn
    · subst hi
      simp only [if_true, h]
      cases hs : A.shown i with
      | none => rfl
      | some sh =>
        simp only [LAbs.touch, hs] at h
        obtain ⟨l, v⟩ := sh
        simp only at h; subst h; rfl
    · simp only [hi, if_false]
  · rfl

/-- When no list is live the record is what it was. -/
theorem flushed_detached (A : LAbs) (h : ∀ i sh, A.shown i = some sh → sh.live = false) (p : Nat → Bool) :
    A.flushed p = A.fields := by
  apply List.ext_getElem?
  intro i
  simp only [LAbs.flushed, List.getElem?_mapIdx]
  cases hs : A.shown i with
  | none => simp
  | some sh =>
    have := h i sh hs
    obtain ⟨l, v⟩ := sh
    simp only at this; subst this; simp

theorem steps_append (a b : List LOp) : ∀ A : LAbs, A.steps (a ++ b) = (A.steps a).steps b := by
  induction a with
  | nil => intro A; rfl
  | cons x a ih => intro A; simp [LAbs.steps, ih]

theorem lfits_append {lists : Nat → Option STy} (a b : List LOp) : ∀ A : LAbs, LFits lists A (a ++ b) →
    LFits lists A a ∧ LFits lists (A.steps a) b := by
  induction a with
  | nil => intro A h; exact ⟨trivial, h⟩
  | cons x a ih => intro A h; obtain ⟨h1, h2⟩ := ih _ h.2; exact ⟨⟨h.1, h1⟩, h2⟩

/-- Editing a detached list when no list is live: the message stays. -/
theorem edit_detached {lists : Nat → Option STy} {L : LSt} {A : LAbs} (h : LInv lists L A)
    (hdet : ∀ i sh, A.shown i = some sh → sh.live = false) {fn : Nat} {t : STy}
    (hfn : fn < A.fields.length) (hty : lists fn = some t) (hl : t.isList = true)
    (hlive : (A.touch fn t).live = false)
    (g : t.Val → Option t.Val) (w : t.Val) (hg : g (listIn t (A.touch fn t).items) = some w) (hw : t.Clean w) :
    ∃ L1 L2, L.edit fn t g = .ok L1 ∧ L1.shows fn t = .ok w ∧
      L1.marshal = .ok (hdr 0 FTStruct (total (encs A.fields 0)) ++ (encs A.fields 0).flatten, L2) := by
  obtain ⟨L1, e1, h1⟩ := edit_inv h hfn hty hl g w hg hw
  have hdet1 : ∀ i sh, (A.setShown fn (some ⟨(A.touch fn t).live, .scalar t w⟩)).shown i = some sh →
      sh.live = false := by
    intro i sh hi
    by_cases hif : i = fn
    · subst hif
      simp only [LAbs.setShown, if_true, Option.some.injEq] at hi
      subst hi; exact hlive
    · exact hdet i sh (by simpa [LAbs.setShown, hif] using hi)
  have hsmall : 8 + sizes A.fields < 2 ^ 32 := by have := h.rep.small; rw [total_encs] at this; exact this
  obtain ⟨msg, L2, e2, h2, hmsg⟩ := marshal_inv h1 (by intro p; rw [flushed_detached _ hdet1]; exact hsmall)
  rw [LAbs.encoded, flushed_detached _ hdet1] at hmsg
  refine ⟨L1, L2, e1, ?_, by rw [e2, hmsg]; rfl⟩
  obtain ⟨id, L3, v, d, k1, _, _, k4⟩ := access_inv h1 (fn := fn) (t := t) hfn hty hl
  have hit : v = w := by
    have := k4.items
    simp only [LAbs.touch, LAbs.setShown, if_true] at this
    simp only [Val.scalar.injEq, heq_eq_eq, true_and] at this
    exact this.symm
  subst hit
  simp [LSt.shows, k1, k4.obj]

/-- **C18, refuted (1).** Once a list has been touched and the struct marshalled, no edit of the list
changes the next message, although the accessor shows the edited items. For every program before, and
every edit. -/
theorem C18_edit_after_marshal_lost {m : Nat} {r : List Val} {s : St} (hb : Begins m r s) (hm : m ≤ 65536)
    {lists : Nat → Option STy} (hty : ListsTyped lists r) (ops : List LOp) (fn : Nat) (t : STy)
    (g : t.Val → Option t.Val) (w : t.Val)
    (hf : LFits lists ⟨r, fun _ => none⟩ (ops ++ [.access fn t, .marshal, .edit fn t g]))
    (hg : g (listIn t ((LAbs.steps ⟨r, fun _ => none⟩ ops).touch fn t).items) = some w) :
    ∃ L1 msg L2 L3 L4, runLOps (ops ++ [.access fn t]) (LSt.ofSt s) = .ok L1 ∧ L1.marshal = .ok (msg, L2) ∧
      L2.edit fn t g = .ok L3 ∧ L3.shows fn t = .ok w ∧ L3.marshal = .ok (msg, L4) := by
  obtain ⟨hinv, hlen⟩ := begins_inv hb hm hty
  rw [show ops ++ [.access fn t, .marshal, .edit fn t g] = (ops ++ [.access fn t]) ++ [.marshal, .edit fn t g] by simp] at hf
  obtain ⟨hf1, hfm, hfe, -⟩ := lfits_append _ _ _ hf
  obtain ⟨L1, e1, h1⟩ := lops_inv _ hinv hf1
  rw [steps_append] at h1 hfm hfe
  generalize hA : LAbs.steps ⟨r, fun _ => none⟩ ops = A at *
  obtain ⟨msg, L2, e2, h2, hmsg⟩ := marshal_inv h1 hfm
  have htouch : (LAbs.step (A.steps [.access fn t]) .marshal).touch fn t = ⟨false, (A.touch fn t).items⟩ := by
    simp [LAbs.steps, LAbs.step, LAbs.touch, LAbs.setShown]
  obtain ⟨k1, k2, k3, v, k4, k5⟩ := hfe
  have hwv : v = w := by
    rw [htouch] at k4; simp only at k4; rw [hg] at k4; exact (Option.some.inj k4).symm
  subst hwv
  obtain ⟨L3, L4, e3, e4, e5⟩ := edit_detached h2 (by
    intro i sh hi
    simp only [LAbs.step, Option.map_eq_some_iff] at hi
    obtain ⟨_, _, rfl⟩ := hi; rfl) k1 k2 k3 (by rw [htouch]) g v k4 k5
  exact ⟨L1, msg, L2, L3, L4, e1, e2, e3, e4, by rw [e5, hmsg]; rfl⟩

/-- **C18, refuted (2).** Editing a list of a decoded message changes nothing in what is encoded
next: the message that was decoded is encoded again, although the accessor shows the edited items. -/
theorem C18_edit_of_decoded_lost {m : Nat} {pre : List Op} (hfit : Fits m pre) {w w' f s : St} {msg extra : Bytes}
    (hw : run m pre = .ok w) (hmar : w.marshal = .ok (msg, w')) (hf : St.new m = .ok f)
    (hu : f.unmarshal msg extra = some s) (fn : Nat) (hfn : fn < m) (t : STy) (hl : t.isList = true)
    (old new : t.Val) (hold : (specRun m pre).getD fn .absent = .scalar t old) (hnew : t.Clean new) :
    ∃ L1 L2, (LSt.ofSt s).edit fn t (fun _ => some new) = .ok L1 ∧ L1.shows fn t = .ok new ∧
      L1.marshal = .ok (msg, L2) := by
  have hb : Begins m (specRun m pre) s := .decoded hfit hw hmar hf hu
  obtain ⟨hinv, hlen⟩ := begins_inv (lists := fun i => if i = fn then some t else none) hb hfit.1 (by
    intro i t' ht
    by_cases hi : i = fn
    · subst hi
      simp only [if_true, Option.some.injEq] at ht
      subst ht; exact Or.inr ⟨old, hold⟩
    · simp [hi] at ht)
  obtain ⟨L1, L2, e1, e2, e3⟩ := edit_detached hinv (fun _ _ h => by simp at h) (fn := fn) (t := t)
    (by show fn < (specRun m pre).length; omega) (by simp) hl (by simp only [LAbs.touch, hold, Val.isAbsent])
    (fun _ => some new) new rfl hnew
  refine ⟨L1, L2, e1, e2, ?_⟩
  rw [e3]
  obtain ⟨s0, h0, hr, hl0, he, hrec, _⟩ := new_rep m
  obtain ⟨s1, h1, h2, h3, h4⟩ := ops_rep pre hr (by simp [hl0]) (by simpa using hfit.1)
    (canons_replicate m) (by rw [hl0]; exact hfit.2)
  have hrun : run m pre = .ok s1 := by simp [run, h0, h1]
  rw [hw] at hrun
  have hrun := Res.ok.inj hrun
  subst hrun
  rw [marshal_rep h2 (by rw [h3.enabled, he])] at hmar
  have hmar := Res.ok.inj hmar
  simp only [Prod.mk.injEq] at hmar
  rw [← hmar.1]; rfl

/-- Shown and stored agree for all lists that are not live. -/
def Agree (A : LAbs) : Prop := ∀ fn sh, A.shown fn = some sh →
  sh.live = true ∨ A.fields.getD fn .absent = stored sh.items

theorem agree_encoded {lists : Nat → Option STy} {L : LSt} {A : LAbs} (hinv : LInv lists L A) (h : Agree A)
    {fn : Nat} {t : STy} (hfn : fn < A.fields.length) (hty : lists fn = some t) :
    A.encoded.getD fn .absent = stored (A.touch fn t).items := by
  rw [LAbs.encoded, flushed_getD A _ fn hfn]
  cases hs : A.shown fn with
  | none =>
    simp only [LAbs.touch, hs, stored]
    rcases hinv.typed fn t hty with e | ⟨v, e⟩
    · rw [e]; simp [listIn, specScalar, isZero_zero]
    · have hc := hinv.canon.get fn
      rw [e] at hc ⊢
      simp only [Val.Canon] at hc
      simp [listIn_scalar, specScalar, hc.1]
  | some sh =>
    simp only [LAbs.touch, hs]
    rcases h fn sh hs with e | e
    · obtain ⟨l, v⟩ := sh
      simp only at e; subst e; rfl
    · obtain ⟨l, v⟩ := sh
      cases l
      · exact e
      · rfl

theorem agree_step {lists : Nat → Option STy} {L : LSt} {A : LAbs} (hinv : LInv lists L A) (h : Agree A)
    (op : LOp) (hf : op.Fits lists A) (hc : Connected A [op]) : Agree (A.step op) := by
  have touch_ok : ∀ fn t, lists fn = some t →
      (A.touch fn t).live = true ∨ A.fields.getD fn .absent = stored (A.touch fn t).items := by
    intro fn t hty
    cases hs : A.shown fn with
    | some sh => simp only [LAbs.touch, hs]; exact h fn sh hs
    | none =>
      simp only [LAbs.touch, hs, stored]
      rcases hinv.typed fn t hty with e | ⟨v, e⟩
      · rw [e]; left; rfl
      · have hc := hinv.canon.get fn
        rw [e] at hc ⊢
        simp only [Val.Canon] at hc
        right; simp [listIn_scalar, specScalar, hc.1]
  cases op with
  | call op =>
    intro fn sh hs
    obtain ⟨_, _, t, _, _, _, k3, _⟩ := hinv.touched fn sh hs
    rcases h fn sh hs with e | e
    · exact Or.inl e
    · right
      rw [← e]
      apply spec_other
      intro hfield
      have := hf.2.1 fn hfield
      rw [k3] at this; simp at this
  | access fn t =>
    intro i sh hs
    by_cases hi : i = fn
    · subst hi
      simp only [LAbs.step, LAbs.setShown, if_true, Option.some.injEq] at hs
      subst hs; exact touch_ok i t hf.2.1
    · exact h i sh (by simpa [LAbs.step, LAbs.setShown, hi] using hs)
  | edit fn t g =>
    obtain ⟨_, _, _, v, hg, _⟩ := hf
    intro i sh hs
    simp only [LAbs.step, hg] at hs ⊢
    by_cases hi : i = fn
    · subst hi
      simp only [LAbs.setShown, if_true, Option.some.injEq] at hs
      subst hs; exact Or.inl hc.1
    · exact h i sh (by simpa [LAbs.setShown, hi] using hs)
  | clear fn =>
    intro i sh hs
    by_cases hi : i = fn
    · subst hi; simp [LAbs.step, LAbs.setShown] at hs
    · rcases h i sh (by simpa [LAbs.step, LAbs.setShown, hi] using hs) with e | e
      · exact Or.inl e
      · right
        rw [← e]
        simp only [LAbs.step, List.getD_eq_getElem?_getD]
        rw [List.getElem?_set_ne (fun e => hi e.symm)]
  | marshal =>
    intro fn sh hs
    simp only [LAbs.step, Option.map_eq_some_iff] at hs
    obtain ⟨sh0, h0, rfl⟩ := hs
    obtain ⟨k1, _, t, _, _, _, k3, _⟩ := hinv.touched fn _ h0
    right
    have := agree_encoded hinv h k1 k3
    simp only [LAbs.touch, h0] at this
    exact this

theorem agree_steps {lists : Nat → Option STy} (ops : List LOp) : ∀ {L : LSt} {A : LAbs}, LInv lists L A →
    Agree A → LFits lists A ops → Connected A ops → Agree (A.steps ops) := by
  induction ops with
  | nil => intro L A _ h _ _; exact h
  | cons op ops ih =>
    intro L A hinv h hf hc
    obtain ⟨L1, _, h1⟩ := lops_inv [op] hinv ⟨hf.1, trivial⟩
    exact ih h1 (agree_step hinv h op hf.1 ⟨hc.1, trivial⟩) hf.2 hc.2

/-- **C18 (partial).** If no edit goes to a list that is not live (every edited list was created for an
empty field since the last marshal), then what the accessors show is what the next `Marshal` encodes,
for every list field. Missing: the edits of `C18_edit_after_marshal_lost` and
`C18_edit_of_decoded_lost`, for which the claim is false. -/
theorem C18_edits_reach_message_partial {m : Nat} {r : List Val} {s : St} (hb : Begins m r s) (hm : m ≤ 65536)
    {lists : Nat → Option STy} (hty : ListsTyped lists r) (ops : List LOp)
    (hf : LFits lists ⟨r, fun _ => none⟩ (ops ++ [.marshal]))
    (hc : Connected ⟨r, fun _ => none⟩ ops) (tys : List Ty) (htl : tys.length = m)
    (htys : FieldsHaveTy (LAbs.steps ⟨r, fun _ => none⟩ ops).encoded tys) :
    ∃ L msg L' r', runLOps ops (LSt.ofSt s) = .ok L ∧ L.marshal = .ok (msg, L') ∧
      Decodes tys msg (viewFields tys r') ∧
      ∀ fn t, lists fn = some t → t.isList = true → fn < m →
        ∃ v, L.shows fn t = .ok v ∧ r'.getD fn .absent = specScalar t v := by
  obtain ⟨L, msg, L', e1, e2, e3, e4⟩ := C18_exact hb hm hty ops hf
  refine ⟨L, msg, L', _, e1, e2, e4 tys htl htys, ?_⟩
  intro fn t ht hl hfn
  refine ⟨_, e3 fn t ht hl hfn, ?_⟩
  obtain ⟨hinv, hlen⟩ := begins_inv hb hm hty
  obtain ⟨hf1, hf2⟩ := lfits_append _ _ _ hf
  have hag := agree_steps ops hinv (fun _ _ h => by simp at h) hf1 hc
  obtain ⟨L1, k1, h1⟩ := lops_inv ops hinv hf1
  rw [e1] at k1
  have k1 := Res.ok.inj k1
  subst k1
  have hlen' : (LAbs.steps ⟨r, fun _ => none⟩ ops).fields.length = m := by
    rw [steps_length]; exact hlen
  rw [agree_encoded h1 hag (by omega) ht]
  obtain ⟨id, L1, v, d, k1, _, _, k4⟩ := access_inv h1 (by rw [hlen']; exact hfn) ht hl
  rw [k4.items, listIn_scalar, stored]

example (s : St) (h : St.new 3 = .ok s) := C18_edits_reach_message_partial (.created h) (by decide)
  (lists := demoLists) (by intro fn t _; left; simp; rcases fn with _ | _ | _ | _ <;> rfl) demoLOps demo_lfits
  demo_connected [.scalar (.lnum .i16), .scalar .lbytes, .scalar .u8] rfl ⟨rfl, trivial, rfl, trivial⟩

/-- The loss on concrete values: append 1, marshal, append 2, marshal. The second message has one item,
the accessor shows two. -/
example :
    (do
      let s ← St.new 1
      let L ← (LSt.ofSt s).edit 0 (.lnum .u8) (fun v => some (v ++ [1]))
      let (_, L) ← L.marshal
      let L ← L.edit 0 (.lnum .u8) (fun v => some (v ++ [2]))
      let shown ← L.shows 0 (.lnum .u8)
      let (msg, _) ← L.marshal
      return (shown, msg) : Res (List UInt8 × Bytes))
    = .ok ([1, 2], [0, 0, 14, 17, 0, 0, 0, 0, 0, 0, 46, 9, 0, 0, 0, 0, 1]) := by decide +kernel

/-- Decode a message with the list [1], set it to [5, 6], encode: the old message. -/
example :
    (do
      let s ← St.new 1
      let s ← setListNums .u8 s 0 [1]
      let (msg, _) ← s.marshal
      let f ← St.new 1
      let s ← Res.ofOption (f.unmarshal msg [])
      let L ← (LSt.ofSt s).edit 0 (.lnum .u8) (fun _ => some [5, 6])
      let (msg', _) ← L.marshal
      return decide (msg = msg') : Res Bool) = .ok true := by decide +kernel

end Claw
