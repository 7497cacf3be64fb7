import Verif.Lemmas.Recording
import Verif.Props.ApplyDiff
import Verif.Spec.Replay

/-!
# Recorded operations, applied to a copy
-/

namespace Claw

set_option linter.unusedSimpArgs false

/-! ### The edits of a list -/

theorem toPOp_insert (fn i : Nat) (d : Bytes) :
    RecOp.toPOp ⟨fn, 6, (Int32.ofNat i).toInt, d⟩ = ⟨UInt16.ofNat fn, PListInsert, Int32.ofNat i, d⟩ := by
  simp only [RecOp.toPOp, Int32.ofInt_toInt]
  rfl

theorem toPOp_listSet (fn i : Nat) (d : Bytes) :
    RecOp.toPOp ⟨fn, 5, (Int32.ofNat i).toInt, d⟩ = ⟨UInt16.ofNat fn, PListSet, Int32.ofNat i, d⟩ := by
  simp only [RecOp.toPOp, Int32.ofInt_toInt]
  rfl

theorem insRecs_toPOp (t : STy) (fn : Nat) : ∀ (xs : List t.Item) (i : Nat),
    (insRecs t fn i xs).map RecOp.toPOp = insOps (UInt16.ofNat fn) t.itemData i xs
  | [], _ => rfl
  | x :: xs, i => by
    simp only [insRecs, insOps, List.map_cons, toPOp_insert, insRecs_toPOp t fn xs (i + 1)]

/-- How an operation of a patch reads an item. -/
def STy.readItem : (t : STy) → Bytes → Option t.Item
  | .lbool, d => d.head?.map (· != 0)
  | .lnum k, d => if k.size ≤ d.length then some (k.ofBits (getLE (d.take k.size))) else none
  | .lstr, d => some d
  | .lbytes, d => some d
  | _, _ => none

theorem STy.readItem_data (t : STy) (x : t.Item) : t.readItem (t.itemData x) = some x := by
  cases t
  case lbool => cases x <;> rfl
  case lnum k =>
    simp only [STy.readItem, STy.itemData, putLE_length, Nat.le_refl, if_true]
    rw [List.take_of_length_le (by simp), getLE_putLE_of_lt (k.bits_lt x), k.ofBits_bits]
  case lstr => rfl
  case lbytes => rfl
  all_goals exact x.elim

theorem STy.itemsOf_ofItems (t : STy) (ht : t.isList = true) (xs : List t.Item) : t.itemsOf (t.ofItems xs) = xs := by
  cases t <;> first | rfl | simp [STy.isList] at ht

theorem STy.ofItems_itemsOf (t : STy) (ht : t.isList = true) (v : t.Val) : t.ofItems (t.itemsOf v) = v := by
  cases t <;> first | rfl | simp [STy.isList] at ht

theorem EditsTo.items {t : STy} (ht : t.isList = true) {fn : UInt16} {n N : Nat} {ops : List POp} {v u : List t.Item}
    (h : SliceEdits t.readItem fn N v ops u)
    (hn : t.isSlice = true ∨ ∀ w : List t.Item, w.length ≤ N → (specScalar t (t.ofItems w)).size ≤ n) :
    EditsTo t fn n (t.ofItems v) ops (t.ofItems u) := by
  cases t <;> simp only [STy.isList, Bool.false_eq_true] at ht
  case lbool => exact EditsTo.bools h
  case lstr => exact EditsTo.strs h
  case lbytes => exact EditsTo.bytes h
  case lnum k => exact EditsTo.nums k h (hn.resolve_left (by simp [STy.isSlice]))

theorem itemsOf_patchItems (v : List Bytes) (h : itemBytes v < 2 ^ 32) :
    (patchItems v).length ≠ 0 ∧ itemsOf (patchItems v) = some v := by
  cases v with
  | nil => decide
  | cons x v =>
    have := itemsOf_replData (x :: v) (by simp) h
    simpa [replData] using this

theorem isList_editable {t : STy} (h : t.isList = true) : t.editable = true := by
  cases t <;> first | rfl | simp [STy.isList] at h

section
variable {fuel : Nat} {tys : List Ty} {M : LSt} {r : List Val} {c : Nat → Option Val} {n : Nat}

/-- The records of one list call, applied. -/
theorem listCall_applied (h : PInv tys M r c) {fn : Nat} (hfn : fn < 65536) {t : STy} (hty : tys[fn]? = some (.scalar t))
    (ht : t.isList = true) (e : ListCall t) {v v' : t.Val} (hv : listIn t (obj r c fn) = v) (he : e.apply v = some v')
    (hcount : (t.itemsOf v').length < 2 ^ 31) (hr : Room r fn n) (hsm : (Val.scalar t v').size < 2 ^ 32)
    (hn : if t.isSlice = true then (r.getD fn .absent).size ≤ n else (Val.scalar t v').size ≤ n) :
    Became fuel tys M ((e.recs fn (t.itemsOf v).length).map RecOp.toPOp) r c fn n fun x => listIn t x = v' := by
  have hfn' : (UInt16.ofNat fn).toNat = fn := by simp; omega
  have hty' : tys[(UInt16.ofNat fn).toNat]? = some (.scalar t) := by rw [hfn']; exact hty
  -- bounds for edits that do not shorten the list
  have hbound : (t.itemsOf v).length ≤ (t.itemsOf v').length →
      (r.getD fn .absent).size ≤ n ∧ (t.isSlice = true ∨
        ∀ w : List t.Item, w.length ≤ (t.itemsOf v').length → (specScalar t (t.ofItems w)).size ≤ n) := by
    intro hle
    by_cases hs : t.isSlice = true
    · rw [if_pos hs] at hn; exact ⟨hn, .inl hs⟩
    · rw [if_neg hs] at hn
      have hk : ∃ k, t = .lnum k := by cases t <;> simp [STy.isList, STy.isSlice] at ht hs; exact ⟨_, rfl⟩
      obtain ⟨k, rfl⟩ := hk
      have hsz : ∀ w : List k.Val, w.length ≤ (STy.itemsOf (.lnum k) v').length → (specScalar (.lnum k) w).size ≤ n := by
        intro w hw
        refine Nat.le_trans ?_ hn
        simp only [specScalar]
        split
        · simp [Val.size]
        · simp only [Val.size, scalarSize]
          have := Nat.mul_le_mul_right k.size hw
          simp only [STy.itemsOf] at this
          omega
      refine ⟨?_, .inr hsz⟩
      obtain ⟨u, a1, a2, _⟩ := h.rawItems hty
      rw [a1]
      apply hsz
      rw [hv] at a2
      rw [← a2]; exact hle
  cases e with
  | append vs =>
    simp only [ListCall.apply, Option.some.injEq] at he
    subst he
    rw [t.itemsOf_ofItems ht] at hcount hbound
    obtain ⟨b1, b2⟩ := hbound (by simp)
    simp only [ListCall.recs, insRecs_toPOp]
    have hed := insOps_edits (item := t.readItem) (enc := t.itemData) t.readItem_data (UInt16.ofNat fn)
      (t.itemsOf v ++ vs).length vs (t.itemsOf v) (Nat.le_refl _) hcount
    have := edits_applied (fuel := fuel) hty' (isList_editable ht) (EditsTo.items ht hed b2) h
      (by rw [hfn']; exact hr) (by rw [hfn']; exact b1) (by rw [hfn', t.ofItems_itemsOf ht]; exact hv)
    rw [hfn'] at this; exact this
  | set i x =>
    simp only [ListCall.apply] at he
    split at he
    · rename_i hi
      simp only [Option.some.injEq] at he
      subst he
      rw [t.itemsOf_ofItems ht] at hcount hbound
      obtain ⟨b1, b2⟩ := hbound (by simp)
      rw [List.length_set] at hcount
      have hlt : i < 2 ^ 31 := by omega
      have hed : SliceEdits t.readItem (UInt16.ofNat fn) ((t.itemsOf v).set i x).length (t.itemsOf v)
          [⟨UInt16.ofNat fn, PListSet, Int32.ofNat i, t.itemData x⟩] ((t.itemsOf v).set i x) := by
        refine .cons (e := .set i (t.itemData x)) ?_ rfl ?_ (Nat.le_refl _) (.nil _)
        · simp only [POp.edit, if_true, toInt_ofNat hlt]
        · simp only [LEdit.slice, t.readItem_data]
          rw [if_pos ⟨by omega, by omega⟩]
          simp
      simp only [ListCall.recs, List.map_cons, List.map_nil, toPOp_listSet]
      have := edits_applied (fuel := fuel) hty' (isList_editable ht) (EditsTo.items ht hed b2) h
        (by rw [hfn']; exact hr) (by rw [hfn']; exact b1) (by rw [hfn', t.ofItems_itemsOf ht]; exact hv)
      rw [hfn'] at this; exact this
    · simp at he
  | setAll vs =>
    simp only [ListCall.apply, Option.some.injEq] at he
    subst he
    have hop : (ListCall.recs fn (t.itemsOf v).length (ListCall.setAll vs)).map RecOp.toPOp =
        [⟨UInt16.ofNat fn, PListReplace, -1, t.allData vs⟩] := rfl
    rw [hop]
    have he : ∀ {d : Bytes}, d = [] → listIn t .absent = t.ofItems vs →
        Became fuel tys M [⟨UInt16.ofNat fn, PListReplace, -1, d⟩] r c fn n fun x => listIn t x = t.ofItems vs := by
      intro d hd hz
      subst hd
      have := (empty_applied (fuel := fuel) (n := n) h hty').mono (Q := fun x => listIn t x = t.ofItems vs)
        fun x hx => by rw [hx]; exact hz
      rw [hfn'] at this; exact this
    cases t <;> simp only [STy.isList, Bool.false_eq_true] at ht
    case lbool =>
      simp only [STy.isSlice, if_true] at hn
      by_cases hnil : vs = []
      · subst hnil; exact he rfl rfl
      · have := replace_applied (fuel := fuel) (n := n) h hty' rfl (by rw [hfn']; exact hn) (d := STy.allData .lbool vs)
          (by simpa [STy.allData] using hnil) (v := vs) (by
            simp only [STy.replItems, STy.allData, List.map_map, Option.some.injEq]
            conv => rhs; rw [← List.map_id vs]
            apply List.map_congr_left
            intro p _; cases p <;> rfl)
        rw [hfn'] at this; exact this
    case lnum k =>
      rw [if_neg (by simp [STy.isSlice])] at hn
      by_cases hnil : vs = []
      · subst hnil; exact he (by simp [STy.allData, setAll_eq, numData]) rfl
      · have := numbers_applied (fuel := fuel) (n := n) h hty' (v := vs) (by rw [hfn']; exact hr) (by
          refine Nat.le_trans ?_ hn
          simp only [specScalar]
          split
          · simp [Val.size]
          · exact Nat.le_refl _) hnil
        simp only [STy.allData, setAll_eq]
        rw [hfn'] at this; exact this
    case lstr =>
      simp only [STy.isSlice, if_true] at hn
      have hsz : itemBytes vs < 2 ^ 32 := by simp only [Val.size, scalarSize, STy.ofItems] at hsm; omega
      obtain ⟨q1, q2⟩ := itemsOf_patchItems vs hsz
      have := replace_applied (fuel := fuel) (n := n) h hty' rfl (by rw [hfn']; exact hn) q1 q2
      rw [hfn'] at this; exact this
    case lbytes =>
      simp only [STy.isSlice, if_true] at hn
      have hsz : itemBytes vs < 2 ^ 32 := by simp only [Val.size, scalarSize, STy.ofItems] at hsm; omega
      obtain ⟨q1, q2⟩ := itemsOf_patchItems vs hsz
      have := replace_applied (fuel := fuel) (n := n) h hty' rfl (by rw [hfn']; exact hn) q1 q2
      rw [hfn'] at this; exact this

end

/-! ### The copy beside the original -/

/-- The size a field of the copy may have: what it had, and what the original shows; lists kept as slices are not written
before the copy is marshalled. -/
def bound (ty : Ty) (b x : Nat) : Nat :=
  match ty with
  | .scalar t => if t.isSlice = true then b else b + x
  | _ => b + x

theorem bound_le (ty : Ty) (b x : Nat) : bound ty b x ≤ b + x := by
  unfold bound; split
  · split <;> omega
  · omega

/-- The copy `M` shows what the original shows. -/
structure ReplayInv (tys : List Ty) (base : List Val) (A : LAbs) (M : LSt) (r : List Val) (c : Nat → Option Val) : Prop where
  pinv : PInv tys M r c
  agree : ∀ i (ty : Ty), tys[i]? = some ty → ty.Agree (obj r c i) (A.current.getD i .absent)
  size : ∀ i ty, tys[i]? = some ty →
    (r.getD i .absent).size ≤ bound ty (base.getD i .absent).size (A.current.getD i .absent).size

section
variable {fuel : Nat} {tys : List Ty} {base : List Val} {A A' : LAbs} {M : LSt} {r : List Val} {c : Nat → Option Val}

theorem ReplayInv.room (h : ReplayInv tys base A M r c) (hb : base.length = tys.length) (hl : A'.fields.length = tys.length)
    (hs : 8 + sizes base + sizes A'.current < 2 ^ 32) {fn n : Nat} (hfn : fn < tys.length)
    (ho : ∀ i, i ≠ fn → A'.current.getD i .absent = A.current.getD i .absent)
    (hn : n ≤ (base.getD fn .absent).size + (A'.current.getD fn .absent).size) : Room r fn n := by
  intro x hx
  have hrl := h.pinv.sch
  refine Nat.lt_of_le_of_lt ?_ hs
  rw [Nat.add_assoc]
  refine Nat.add_le_add_left (sizes_le_add _ _ _ (by simp; omega) (by rw [current_length]; simp; omega) fun i => ?_) 8
  by_cases hi : i = fn
  · subst hi; rw [PInv.getD_set_self (by omega)]; omega
  · rw [PInv.getD_set_ne hi, ho i hi]
    by_cases hlt : i < tys.length
    · exact Nat.le_trans (h.size i _ (List.getElem?_eq_getElem hlt)) (bound_le _ _ _)
    · rw [List.getD_eq_getElem?_getD, List.getElem?_eq_none (by omega)]; simp [Val.size]

theorem ReplayInv.step (h : ReplayInv tys base A M r c) {fn : Nat} {ty : Ty} (hty : tys[fn]? = some ty)
    (ho : ∀ i, i ≠ fn → A'.current.getD i .absent = A.current.getD i .absent) {ops : List POp}
    (hb : Became fuel tys M ops r c fn (bound ty (base.getD fn .absent).size (A'.current.getD fn .absent).size)
      fun x => ty.Agree x (A'.current.getD fn .absent)) :
    ∃ M' r' c', AllApplied (applyOp fuel tys) M ops M' ∧ ReplayInv tys base A' M' r' c' := by
  obtain ⟨M', r', c', e1, e2, e3, e4, e5, e6⟩ := hb
  refine ⟨M', r', c', e1, e2, ?_, ?_⟩
  · intro i ty' hi
    by_cases hif : i = fn
    · subst hif; rw [hty] at hi; rw [← Option.some.inj hi]; exact e3
    · rw [e4 i hif, ho i hif]; exact h.agree i ty' hi
  · intro i ty' hi
    by_cases hif : i = fn
    · subst hif; rw [hty] at hi; rw [← Option.some.inj hi]; exact e6
    · rw [e5 i hif, ho i hif]; exact h.size i ty' hi

theorem ReplayInv.same (h : ReplayInv tys base A M r c)
    (ho : ∀ i (ty : Ty), tys[i]? = some ty → (∀ x, ty.Agree x (A.current.getD i .absent) → ty.Agree x (A'.current.getD i .absent)) ∧
      (A.current.getD i .absent).size ≤ (A'.current.getD i .absent).size) :
    ∃ M' r' c', AllApplied (applyOp fuel tys) M [] M' ∧ ReplayInv tys base A' M' r' c' := by
  refine ⟨M, r, c, .nil, h.pinv, fun i ty hi => (ho i ty hi).1 _ (h.agree i ty hi), fun i ty hi => ?_⟩
  refine Nat.le_trans (h.size i ty hi) ?_
  have := (ho i ty hi).2
  unfold bound
  split
  · split <;> omega
  · omega

end

theorem listsOf_scalar {tys : List Ty} {fn : Nat} {t : STy} (h : listsOf tys fn = some t) :
    tys[fn]? = some (.scalar t) ∧ t.isList = true := by
  simp only [listsOf] at h
  split at h
  · rename_i t' ht
    split at h
    · rename_i hl
      have := Option.some.inj h
      subst this
      exact ⟨ht, hl⟩
    · simp at h
  · simp at h

section
variable {tys : List Ty} {L : LSt} {A : LAbs}

theorem shown_none (hv : LInv (listsOf tys) L A) {fn : Nat} (h : listsOf tys fn = none) : A.shown fn = none := by
  cases hs : A.shown fn with
  | none => rfl
  | some sh =>
    obtain ⟨_, id, t, v, d, _, e2, _⟩ := hv.touched fn sh hs
    rw [h] at e2; simp at e2

theorem current_ge (A : LAbs) (i : Nat) (h : A.fields.length ≤ i) : A.current.getD i .absent = .absent := by
  rw [List.getD_eq_getElem?_getD, List.getElem?_eq_none (by rw [current_length]; exact h)]; rfl

/-- What the getters show after a setter. -/
theorem current_set (hv : LInv (listsOf tys) L A) {fn : Nat} (h : listsOf tys fn = none) (hlt : fn < A.fields.length) (x : Val) :
    (LAbs.current { A with fields := A.fields.set fn x }).getD fn .absent = x ∧
    ∀ i, i ≠ fn → (LAbs.current { A with fields := A.fields.set fn x }).getD i .absent = A.current.getD i .absent := by
  constructor
  · rw [current_getD _ fn (by simpa using hlt)]
    simp only [shown_none hv h]
    exact PInv.getD_set_self hlt
  · intro i hi
    by_cases hil : i < A.fields.length
    · rw [current_getD _ i (by simpa using hil), current_getD A i hil]
      cases A.shown i with
      | none => exact PInv.getD_set_ne hi
      | some sh => rfl
    · rw [current_ge _ i (by simp; omega), current_ge _ i (by omega)]

/-- What the getters show after a list was touched or edited. -/
theorem current_setShown (A : LAbs) {fn : Nat} (hlt : fn < A.fields.length) (sh : Shown) :
    (A.setShown fn (some sh)).current.getD fn .absent = sh.items ∧
    ∀ i, i ≠ fn → (A.setShown fn (some sh)).current.getD i .absent = A.current.getD i .absent := by
  constructor
  · rw [current_getD (A.setShown fn (some sh)) fn hlt]; simp [LAbs.setShown]
  · intro i hi
    by_cases hil : i < A.fields.length
    · rw [current_getD (A.setShown fn (some sh)) i hil, current_getD A i hil]; simp [LAbs.setShown, hi]
    · rw [current_ge _ i (by simp [LAbs.setShown]; omega), current_ge _ i (by omega)]

/-- Touching a list does not change its items. -/
theorem touch_items (hv : LInv (listsOf tys) L A) {fn : Nat} {t : STy} (ht : listsOf tys fn = some t) (hlt : fn < A.fields.length) :
    ∃ v, (A.touch fn t).items = .scalar t v ∧ listIn t (A.current.getD fn .absent) = v ∧
      (A.current.getD fn .absent).size ≤ (Val.scalar t v).size := by
  rw [current_getD A fn hlt]
  cases hs : A.shown fn with
  | some sh =>
    obtain ⟨_, id, t', v, d, _, e2, _, _, e5⟩ := hv.touched fn sh hs
    rw [ht] at e2
    have := Option.some.inj e2
    subst this
    refine ⟨v, by simp [LAbs.touch, hs, e5.items], by simp [e5.items, listIn], by simp [e5.items]⟩
  | none =>
    refine ⟨listIn t (A.fields.getD fn .absent), by simp only [LAbs.touch, hs], rfl, ?_⟩
    rcases hv.typed fn t ht with e | ⟨v, e⟩ <;> simp only [e]
    · simp [Val.size]
    · simp [listIn]

theorem LInv.noted (hv : LInv (listsOf tys) L A) (o : List RecOp) : LInv (listsOf tys) (L.note false o) A :=
  ⟨⟨hv.rep.data, hv.rep.len, hv.rep.wf, hv.rep.small, hv.rep.idx_parsed, hv.rep.idx_unparsed⟩, hv.len, hv.max, hv.canon,
    ⟨hv.cfg.1, rfl⟩, hv.typed, hv.untouched, fun fn sh h => by
      obtain ⟨a, id, t, v, d, b, c, e, f, g⟩ := hv.touched fn sh h
      exact ⟨a, id, t, v, d, b, c, e, f, g.obj, g.items, g.live, g.clean⟩, hv.pend, hv.nodup⟩

theorem record_note (L : LSt) (o recs : List RecOp) : (L.note true o).record recs = L.note true (o ++ recs) := by
  have : ∀ (recs o : List RecOp) (s : St), recs.foldl St.recordOp (s.note true o) = s.note true (o ++ recs) := by
    intro recs
    induction recs with
    | nil => intro o s; simp
    | cons x recs ih => intro o s; rw [List.foldl_cons, recordOp_note_true, ih]; simp
  simp only [LSt.record]
  rw [show (L.note true o).st = L.st.note true o from rfl, this]
  rfl

end

theorem recData_plain (t : STy) (ht : t.plain = true) (v : t.Val) (hz : t.isZero v = false) : t.recData v = t.patchData v := by
  cases t <;> simp only [STy.plain, Bool.false_eq_true] at ht <;> simp only [STy.recData, STy.patchData, NTy.patchData]
  case bool => simp [STy.isZero] at hz; simp [boolData, hz]
  case i8 => simp [NTy.size, NTy.bits, putLE]
  case u8 => simp [NTy.size, NTy.bits, putLE]
  all_goals rfl

theorem toPOp_clear (fn : Nat) : RecOp.toPOp ⟨fn, OpClear, -1, []⟩ = ⟨UInt16.ofNat fn, PClear, -1, []⟩ := rfl
theorem toPOp_set (fn : Nat) (d : Bytes) : RecOp.toPOp ⟨fn, OpSet, -1, d⟩ = ⟨UInt16.ofNat fn, PSet, -1, d⟩ := rfl

section
variable {tys : List Ty} {base : List Val} {L : LSt} {A : LAbs}

/-- What is to be shown of one call. -/
def ActOK (tys : List Ty) (base : List Val) (L : LSt) (A : LAbs) (act : RAct) : Prop :=
  ∃ L' recs, LInv (listsOf tys) L' (A.step act.toLOp) ∧
    (∀ i ty, tys[i]? = some ty → ((A.step act.toLOp).fields.getD i .absent).HasTy ty) ∧
    (∀ o, act.run (L.note true o) = .ok (L'.note true (o ++ recs))) ∧
    ∀ fuel M r c, ReplayInv tys base A M r c →
      ∃ M' r' c', AllApplied (applyOp fuel tys) M (recs.map RecOp.toPOp) M' ∧ ReplayInv tys base (A.step act.toLOp) M' r' c'

theorem typed_fields_set (hty : ∀ i ty, tys[i]? = some ty → (A.fields.getD i .absent).HasTy ty) {fn : Nat} {ty : Ty}
    (h : tys[fn]? = some ty) (hlt : fn < A.fields.length) {x : Val} (hx : x.HasTy ty) (i : Nat) (ty' : Ty) (hi : tys[i]? = some ty') :
    ((A.fields.set fn x).getD i .absent).HasTy ty' := by
  by_cases hif : i = fn
  · subst hif
    rw [PInv.getD_set_self hlt]
    rw [h] at hi
    rw [← Option.some.inj hi]; exact hx
  · rw [PInv.getD_set_ne hif]; exact hty i ty' hi

/-- A call that stores `x` with a setter that records. -/
theorem stored_ok (hv : LInv (listsOf tys) L A) (hl : A.fields.length = tys.length)
    (hty : ∀ i ty, tys[i]? = some ty → (A.fields.getD i .absent).HasTy ty) (hb : base.length = tys.length) {op : Op}
    (hfit : op.Fits A.fields.length) {fn : Nat} {x : Val} (hspec : ∀ r, op.spec r = r.set fn x) (hfield : op.field = some fn)
    {ty : Ty} (hf : tys[fn]? = some ty) (hpl : ∀ t, ty = .scalar t → t.isList = false) (hx : x.HasTy ty)
    (hs0 : 8 + sizes (op.spec A.fields) < 2 ^ 32)
    (hs : 8 + sizes base + sizes (A.step (.call op)).current < 2 ^ 32)
    {z : Bool} {blob : Option Bytes} {rd : Bytes} (hrun : ∀ s, op.run s = setOrClear s fn z blob rd)
    (hclear : z = true → x = .absent)
    (hset : z = false → ∀ fuel M r c n, PInv tys M r c → Room r fn n → x.size ≤ n →
      Became fuel tys M [⟨UInt16.ofNat fn, PSet, -1, rd⟩] r c fn n fun y => y = x) :
    ActOK tys base L A (.call op) := by
  have hfn : fn < tys.length := (List.getElem?_eq_some_iff.1 hf).1
  have hfn6 : fn < 65536 := by have := hv.max; omega
  have hfn' : (UInt16.ofNat fn).toNat = fn := by simp; omega
  have hnl : listsOf tys fn = none := by
    cases hh : listsOf tys fn with
    | none => rfl
    | some t =>
      obtain ⟨h1, h2⟩ := listsOf_scalar hh
      rw [hf] at h1
      rw [hpl t (Option.some.inj h1)] at h2; simp at h2
  obtain ⟨L', e1, e2⟩ := call_inv hv op hfit (by rw [hfield]; intro f h; cases h; exact hnl) hs0
  simp only [LOp.run] at e1
  obtain ⟨s', e3, e4⟩ := Res.bind_eq_ok.1 e1
  simp only [Res.pure_eq, Res.ok.injEq] at e4
  subst e4
  have hcur := current_set hv hnl (by omega : fn < A.fields.length) x
  have hstep : A.step (.call op) = { A with fields := A.fields.set fn x } := by simp only [LAbs.step, hspec]
  refine ⟨_, [if z then ⟨fn, OpClear, -1, []⟩ else ⟨fn, OpSet, -1, rd⟩], e2, ?_, ?_, ?_⟩
  · intro i ty' hi
    simp only [RAct.toLOp, hstep]
    exact typed_fields_set hty hf (by omega) hx i ty' hi
  · intro o
    rw [hrun] at e3
    simp only [RAct.run, LOp.run]
    rw [show (L.note true o).st = L.st.note true o from rfl, hrun, setOrClear_note hv.cfg.2 e3 o]
    rfl
  · intro fuel M r c h
    simp only [RAct.toLOp]
    rw [hstep] at hs ⊢
    refine h.step hf hcur.2 ?_
    rw [hcur.1]
    have hroom : Room r fn (bound ty (base.getD fn .absent).size x.size) :=
      h.room hb (by simpa using hl) hs hfn hcur.2 (by rw [hcur.1]; exact bound_le _ _ _)
    have hagree : ∀ y, y = x → ty.Agree y x := by
      intro y hy; subst hy
      cases ty with
      | scalar t => simp [Ty.Agree]
      | struct => rfl
      | structs => rfl
    cases z with
    | true =>
      have := clear_applied (fuel := fuel) (n := bound ty (base.getD fn .absent).size x.size) h.pinv
        (fn := UInt16.ofNat fn) (by rw [hfn']; exact hf)
      rw [hfn'] at this
      exact this.mono fun y hy => hagree y (by rw [hy, hclear rfl])
    | false =>
      refine (hset rfl fuel M r c _ h.pinv hroom ?_).mono hagree
      unfold bound
      split
      · rename_i t
        have : t.isSlice = false := by
          have := hpl t rfl
          cases t <;> first | rfl | simp [STy.isList] at this
        simp [this]
      · omega

theorem set_ok (hv : LInv (listsOf tys) L A) (hl : A.fields.length = tys.length)
    (hty : ∀ i ty, tys[i]? = some ty → (A.fields.getD i .absent).HasTy ty) (hb : base.length = tys.length)
    {fn : Nat} {t : STy} {v : t.Val} (hf : LOp.Fits (listsOf tys) A (.call (.set fn t v))) (hft : tys[fn]? = some (.scalar t))
    (hp : t.plain = true) (hs : 8 + sizes base + sizes (A.step (.call (.set fn t v))).current < 2 ^ 32) :
    ActOK tys base L A (.call (.set fn t v)) := by
  have hfit := hf.1
  simp only [Op.Fits] at hfit
  have hfn6 : fn < 65536 := by have := hv.max; omega
  have hfn' : (UInt16.ofNat fn).toNat = fn := by simp; omega
  have hnl : t.isList = false := by cases t <;> first | rfl | simp [STy.plain] at hp
  have hnm : t.isMap = false := by cases t <;> first | rfl | simp [STy.plain] at hp
  have hsz : scalarSize t v < 2 ^ 32 := by
    cases hz : t.isZero v with
    | true => exact scalarSize_zero t v hz
    | false =>
      have hs0 := hf.2.2
      have := sizes_ge (A.fields.set fn (specScalar t v)) fn
      rw [PInv.getD_set_self hfit.1] at this
      simp only [Op.spec, specScalar, hz, Bool.false_eq_true, if_false, Val.size] at this hs0
      omega
  refine stored_ok hv hl hty hb hf.1 (fn := fn) (x := specScalar t v) (fun r => rfl) rfl hft (fun t' e => by cases e; exact hnl) ?_
    hf.2.2 hs (fun s => set_eq t s fn v hsz hfit.2.storable hnl hnm) ?_ ?_
  · simp only [specScalar]; split <;> simp [Val.HasTy]
  · intro hz; simp [specScalar, hz]
  · intro hz fuel M r c n h hr hn
    have := set_applied (fuel := fuel) (n := n) h (fn := UInt16.ofNat fn) (by rw [hfn']; exact hft) hp hfit.2
      (by rw [hfn']; exact hr) hn
    rw [hfn'] at this
    rw [recData_plain t hp v hz]
    exact this

theorem nest_ok (hv : LInv (listsOf tys) L A) (hl : A.fields.length = tys.length)
    (hty : ∀ i ty, tys[i]? = some ty → (A.fields.getD i .absent).HasTy ty) (hb : base.length = tys.length)
    {fn m : Nat} {ops : List Op} (hf : LOp.Fits (listsOf tys) A (.call (.nest fn m ops)))
    (hp : Op.Replayable tys (.nest fn m ops)) (hs : 8 + sizes base + sizes (A.step (.call (.nest fn m ops))).current < 2 ^ 32) :
    ActOK tys base L A (.call (.nest fn m ops)) := by
  have hfit := hf.1
  simp only [Op.Fits] at hfit
  obtain ⟨hfn, hm', hff⟩ := hfit
  obtain ⟨ctys, hft, rfl, hct⟩ := hp
  have hfn6 : fn < 65536 := by have := hv.max; omega
  have hfn' : (UInt16.ofNat fn).toNat = fn := by simp; omega
  obtain ⟨c0, hc0, hr0, hlen0, _⟩ := new_rep ctys.length
  obtain ⟨c, hcrun, hcr, hcfg, hcc⟩ := ops_rep ops hr0 (by simp [hlen0]) (by simp [hm'])
    (canons_replicate ctys.length) (by rw [hlen0]; exact hff)
  have hclen : (specOps ops (List.replicate ctys.length .absent)).length = ctys.length := by
    rw [specOps_length]; simp
  have hdl : c.seg.data.length = 8 + sizes (specOps ops (List.replicate ctys.length .absent)) := by
    rw [hcr.data, List.length_append, encs_flatten_length, hdr_length]
  have hz := sizes_eq_zero (specOps ops (List.replicate ctys.length .absent))
  refine stored_ok hv hl hty hb hf.1 (fn := fn) (x := specStruct (specOps ops (List.replicate ctys.length .absent)))
    (fun r => rfl) rfl hft (fun t' e => by simp at e) ?_ hf.2.2 hs
    (z := decide (c.seg.data.length ≤ HeaderSize)) (blob := nestedBlob fn c.seg.data) (rd := c.seg.data) ?_ ?_ ?_
  · simp only [specStruct]; split
    · simp [Val.HasTy]
    · simpa [Val.HasTy] using hct
  · intro s
    simp only [Op.run, hc0, Res.ok_bind, hcrun, setNestedStruct]
  · intro h
    simp only [decide_eq_true_eq, HeaderSize] at h
    rw [specStruct, if_pos (hz.1 (by omega))]
  · intro h fuel M r c' n hi hr hn
    simp only [decide_eq_false_iff_not, HeaderSize] at h
    have hall : (specOps ops (List.replicate ctys.length .absent)).all Val.isAbsent = false := by
      cases hh : (specOps ops (List.replicate ctys.length .absent)).all Val.isAbsent with
      | false => rfl
      | true => have := hz.2 hh; omega
    have hsp : specStruct (specOps ops (List.replicate ctys.length .absent)) =
        .struct (specOps ops (List.replicate ctys.length .absent)) := by rw [specStruct, hall]; rfl
    have hcan := canon_specStruct _ hcc (by omega)
    rw [hsp] at hcan hn ⊢
    have := struct_applied (fuel := fuel) (n := n) hi (fn := UInt16.ofNat fn) (by rw [hfn']; exact hft)
      (d := c.seg.data) ⟨0, by omega, hcr.data⟩ hcan hct (by rw [hfn']; exact hr) hn
    rw [hfn'] at this; exact this

theorem nestNil_ok (hv : LInv (listsOf tys) L A) (hl : A.fields.length = tys.length)
    (hty : ∀ i ty, tys[i]? = some ty → (A.fields.getD i .absent).HasTy ty) (hb : base.length = tys.length)
    {fn : Nat} (hf : LOp.Fits (listsOf tys) A (.call (.nestNil fn)))
    (hp : Op.Replayable tys (.nestNil fn)) (hs : 8 + sizes base + sizes (A.step (.call (.nestNil fn))).current < 2 ^ 32) :
    ActOK tys base L A (.call (.nestNil fn)) := by
  obtain ⟨ctys, hft⟩ := hp
  exact stored_ok hv hl hty hb hf.1 (fn := fn) (x := .absent) (fun r => rfl) rfl hft (fun t' e => by simp at e)
    (by simp [Val.HasTy]) hf.2.2 hs (z := true) (blob := none) (rd := []) (fun s => rfl) (fun _ => rfl) (by simp)

theorem peek_ok (hv : LInv (listsOf tys) L A)
    (hty : ∀ i ty, tys[i]? = some ty → (A.fields.getD i .absent).HasTy ty) : ActOK tys base L A (.call .peek) := by
  obtain ⟨st, e1, e2⟩ := hv.ensure
  refine ⟨_, [], e2, hty, ?_, fun fuel M r c h => h.same (fun i ty hi => ⟨fun x hx => hx, Nat.le_refl _⟩)⟩
  intro o
  simp only [RAct.run, LOp.run, Op.run]
  rw [show (L.note true o).st = L.st.note true o from rfl, ensure_note, e1]
  simp [Res.map_ok, LSt.note, St.note]

/-- What a client can know of a list, whether it was touched or not. -/
theorem same_touch {fuel : Nat} {M : LSt} {r : List Val} {c : Nat → Option Val} (hv : LInv (listsOf tys) L A)
    (h : ReplayInv tys base A M r c) {fn : Nat} {t : STy}
    (ht : listsOf tys fn = some t) (hlt : fn < A.fields.length) :
    ∃ M' r' c', AllApplied (applyOp fuel tys) M [] M' ∧ ReplayInv tys base (A.setShown fn (some (A.touch fn t))) M' r' c' := by
  obtain ⟨v, e1, e2, e3⟩ := touch_items hv ht hlt
  have hc := current_setShown A hlt (A.touch fn t)
  refine h.same fun i ty hi => ?_
  by_cases hif : i = fn
  · subst hif
    obtain ⟨h1, h2⟩ := listsOf_scalar ht
    rw [h1] at hi
    rw [← Option.some.inj hi, hc.1, e1]
    refine ⟨fun x hx => ?_, e3⟩
    simp only [Ty.Agree, h2, if_true] at hx ⊢
    rw [hx, e2, listIn_scalar]
  · rw [hc.2 i hif]
    exact ⟨fun x hx => hx, Nat.le_refl _⟩

theorem access_ok (hv : LInv (listsOf tys) L A)
    (hty : ∀ i ty, tys[i]? = some ty → (A.fields.getD i .absent).HasTy ty) {fn : Nat} {t : STy}
    (hf : LOp.Fits (listsOf tys) A (.access fn t)) : ActOK tys base L A (.access fn t) := by
  obtain ⟨hlt, ht, hl⟩ := hf
  obtain ⟨id, L', v, d, e1, e2, _, _⟩ := access_inv hv hlt ht hl
  refine ⟨L', [], e2, hty, ?_, fun fuel M r c h => same_touch hv h ht hlt⟩
  intro o
  simp only [RAct.run, LOp.run, access_note, e1, Res.map_ok, Res.ok_bind, List.append_nil]
  rfl

theorem marshal_current (A : LAbs) (i : Nat) : (A.step .marshal).current.getD i .absent = A.current.getD i .absent := by
  have hlen : (A.step .marshal).fields.length = A.fields.length := by simp [LAbs.step, LAbs.encoded, LAbs.flushed]
  by_cases hi : i < A.fields.length
  · rw [current_getD (A.step .marshal) i (by omega), current_getD A i hi]
    simp only [LAbs.step, LAbs.encoded]
    cases hs : A.shown i with
    | some sh => rfl
    | none => simp only [Option.map_none, flushed_getD _ _ _ hi, hs]
  · rw [current_ge _ i (by omega), current_ge _ i (by omega)]

theorem marshal_ok (hv : LInv (listsOf tys) L A) (hl : A.fields.length = tys.length)
    (hty : ∀ i ty, tys[i]? = some ty → (A.fields.getD i .absent).HasTy ty)
    (hf : LOp.Fits (listsOf tys) A .marshal) : ActOK tys base L A .marshal := by
  obtain ⟨msg, L', e1, e2, _⟩ := marshal_inv hv hf
  refine ⟨L', [], e2, ?_, ?_, fun fuel M r c h => h.same (fun i ty hi => ?_)⟩
  · intro i ty hi
    have hlt : i < A.fields.length := by rw [hl]; exact (List.getElem?_eq_some_iff.1 hi).1
    simp only [RAct.toLOp, LAbs.step, LAbs.encoded]
    rw [flushed_getD _ _ _ hlt]
    have h0 := hty i ty hi
    split
    · rename_i v hs
      simp only [if_true]
      obtain ⟨_, id, t, v', d, _, e3, _, _, e4⟩ := hv.touched i _ hs
      have := e4.items
      simp only at this
      obtain ⟨e5, _⟩ := listsOf_scalar e3
      rw [hi] at e5
      rw [this, Option.some.inj e5]
      simp only [stored, specScalar]
      split <;> simp [Val.HasTy]
    · exact h0
  · intro o
    simp only [RAct.run, LOp.run, marshal_note, e1, Res.map_ok, Res.ok_bind, List.append_nil]
    rfl
  · simp only [RAct.toLOp, marshal_current]
    exact ⟨fun x hx => hx, Nat.le_refl _⟩

theorem setShown_twice (A : LAbs) (fn : Nat) (a b : Option Shown) : (A.setShown fn a).setShown fn b = A.setShown fn b := by
  simp only [LAbs.setShown, LAbs.mk.injEq, true_and]
  funext i; split <;> rfl

theorem touch_setShown (A : LAbs) (fn : Nat) (t : STy) (sh : Shown) : (A.setShown fn (some sh)).touch fn t = sh := by
  simp [LAbs.touch, LAbs.setShown]

/-- What an edit records. -/
theorem edit_runs (hv : LInv (listsOf tys) L A) {fn : Nat} {t : STy} {e : ListCall t}
    (hf : LOp.Fits (listsOf tys) A (.edit fn t e.apply)) : ∃ L', LInv (listsOf tys) L' (A.step (.edit fn t e.apply)) ∧
      ∀ o, RAct.run (.edit fn t e) (L.note true o) =
        .ok (L'.note true (o ++ e.recs fn (t.itemsOf (listIn t (A.touch fn t).items)).length)) := by
  obtain ⟨hlt, ht, hlist, v', hg, hcl⟩ := hf
  obtain ⟨id, L1, v, d, e1, h1, e2, e3⟩ := access_inv hv hlt ht hlist
  obtain ⟨L2, e4, h2⟩ := edit_inv (A := A.setShown fn (some (A.touch fn t))) h1 hlt ht hlist e.apply v'
    (by rw [touch_setShown]; exact hg) hcl
  rw [touch_setShown, setShown_twice] at h2
  have hstep : A.step (.edit fn t e.apply) = A.setShown fn (some ⟨(A.touch fn t).live, .scalar t v'⟩) := by
    simp only [LAbs.step, hg]
  rw [hstep, e3.items, listIn_scalar]
  refine ⟨L2, h2, fun o => ?_⟩
  have hi : (L1.note true o).items id t = .ok v := by
    simp only [LSt.items]
    rw [show (L1.note true o).heap = L1.heap from rfl, e3.obj]
    simp
  simp only [RAct.run, access_note, e1, Res.map_ok, Res.ok_bind, hi, edit_note, e4, record_note]
  rfl

theorem edit_ok (hv : LInv (listsOf tys) L A) (hl : A.fields.length = tys.length)
    (hty : ∀ i ty, tys[i]? = some ty → (A.fields.getD i .absent).HasTy ty) (hb : base.length = tys.length)
    {fn : Nat} {t : STy} {e : ListCall t} (hf : RAct.Fits tys A (.edit fn t e))
    (hs : 8 + sizes base + sizes (A.step (.edit fn t e.apply)).current < 2 ^ 32) : ActOK tys base L A (.edit fn t e) := by
  obtain ⟨⟨hlt, ht, hlist, v', hg, hcl⟩, hcount⟩ := hf
  have hcount := hcount v' hg
  obtain ⟨hft, _⟩ := listsOf_scalar ht
  have hfn6 : fn < 65536 := by have := hv.max; omega
  obtain ⟨L2, h2, hrun⟩ := edit_runs hv (e := e) ⟨hlt, ht, hlist, v', hg, hcl⟩
  have hstep : A.step (.edit fn t e.apply) = A.setShown fn (some ⟨(A.touch fn t).live, .scalar t v'⟩) := by
    simp only [LAbs.step, hg]
  obtain ⟨v0, a1, a2, a3⟩ := touch_items hv ht hlt
  rw [a1, listIn_scalar] at hg hrun
  have hcur := current_setShown A hlt ⟨(A.touch fn t).live, .scalar t v'⟩
  simp only [ActOK, RAct.toLOp, hstep]
  rw [hstep] at hs
  rw [hstep] at h2
  refine ⟨L2, e.recs fn (t.itemsOf v0).length, h2, hty, hrun, ?_⟩
  · intro fuel M r c h
    refine h.step hft hcur.2 ?_
    have hag := h.agree fn _ hft
    simp only [Ty.Agree, hlist, if_true] at hag
    rw [a2] at hag
    have hroom : Room r fn (bound (.scalar t) (base.getD fn .absent).size (Val.scalar t v').size) :=
      h.room (A' := A.setShown fn (some ⟨(A.touch fn t).live, .scalar t v'⟩)) hb hl hs (by omega) hcur.2 (by rw [hcur.1]; exact bound_le _ _ _)
    rw [hcur.1]
    refine (listCall_applied (fuel := fuel) h.pinv hfn6 hft hlist e hag hg hcount hroom ?_ ?_).mono fun x hx => ?_
    · have := sizes_ge (A.setShown fn (some ⟨(A.touch fn t).live, .scalar t v'⟩)).current fn
      rw [hcur.1] at this
      exact Nat.lt_of_le_of_lt this (by omega)
    · have := h.size fn _ hft
      unfold bound at this ⊢
      split
      · rename_i hsl; simp only [hsl, if_true] at this ⊢; exact this
      · rename_i hsl; simp only [hsl]; simp
    · simp only [Ty.Agree, hlist, if_true, listIn_scalar]; exact hx

theorem act_ok (hv : LInv (listsOf tys) L A) (hl : A.fields.length = tys.length)
    (hty : ∀ i ty, tys[i]? = some ty → (A.fields.getD i .absent).HasTy ty) (hb : base.length = tys.length)
    {act : RAct} (hf : act.Fits tys A) (hs : 8 + sizes base + sizes (A.step act.toLOp).current < 2 ^ 32) :
    ActOK tys base L A act := by
  cases act with
  | edit fn t e => exact edit_ok hv hl hty hb hf hs
  | access fn t => exact access_ok hv hty hf
  | marshal => exact marshal_ok hv hl hty hf
  | call op =>
    cases op with
    | set fn t v => exact set_ok hv hl hty hb hf.1 hf.2.1 hf.2.2 hs
    | nest fn m ops => exact nest_ok hv hl hty hb hf.1 hf.2 hs
    | nestNil fn => exact nestNil_ok hv hl hty hb hf.1 hf.2 hs
    | peek => exact peek_ok hv hty
    | clear fn => exact hf.2.elim
    | nestList fn m items => exact hf.2.elim

theorem spec_fields_length (op : Op) (r : List Val) : (op.spec r).length = r.length := by
  cases op <;> simp [Op.spec]

theorem step_length (A : LAbs) (op : LOp) : (A.step op).fields.length = A.fields.length := by
  cases op with
  | call op => exact spec_fields_length op _
  | access fn t => rfl
  | edit fn t g => simp only [LAbs.step]; split <;> rfl
  | clear fn => simp [LAbs.step]
  | marshal => simp [LAbs.step, LAbs.encoded, LAbs.flushed]

theorem acts_ok (hb : base.length = tys.length) : ∀ (acts : List RAct) (L : LSt) (A : LAbs), LInv (listsOf tys) L A → A.fields.length = tys.length →
    (∀ i ty, tys[i]? = some ty → (A.fields.getD i .absent).HasTy ty) → RFits tys base A acts →
    ∃ L' recs, LInv (listsOf tys) L' (A.steps (acts.map RAct.toLOp)) ∧
      (A.steps (acts.map RAct.toLOp)).fields.length = tys.length ∧
      (∀ i ty, tys[i]? = some ty → ((A.steps (acts.map RAct.toLOp)).fields.getD i .absent).HasTy ty) ∧
      (∀ o, runActs acts (L.note true o) = .ok (L'.note true (o ++ recs))) ∧
      ∀ fuel M r c, ReplayInv tys base A M r c →
        ∃ M' r' c', AllApplied (applyOp fuel tys) M (recs.map RecOp.toPOp) M' ∧
          ReplayInv tys base (A.steps (acts.map RAct.toLOp)) M' r' c'
  | [], L, A, hv, hl, hty, _ =>
    ⟨L, [], hv, hl, hty, fun o => by simp [runActs], fun fuel M r c h => ⟨M, r, c, .nil, h⟩⟩
  | act :: acts, L, A, hv, hl, hty, hf => by
    obtain ⟨hf1, hf2, hf3⟩ := hf
    obtain ⟨L1, recs1, a1, a2, a3, a4⟩ := act_ok hv hl hty hb hf1 hf2
    obtain ⟨L2, recs2, b1, b2, b3, b4, b5⟩ := acts_ok hb acts L1 _ a1 (by rw [step_length]; exact hl) a2 hf3
    refine ⟨L2, recs1 ++ recs2, b1, b2, b3, ?_, ?_⟩
    · intro o
      simp only [runActs, a3, Res.ok_bind, b4, List.append_assoc]
    · intro fuel M r c h
      obtain ⟨M1, r1, c1, d1, d2⟩ := a4 fuel M r c h
      obtain ⟨M2, r2, c2, d3, d4⟩ := b5 fuel M1 r1 c1 d2
      exact ⟨M2, r2, c2, by rw [List.map_append]; exact d1.append d3, d4⟩

end

end Claw
