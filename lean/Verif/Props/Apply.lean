import Verif.Lemmas.ApplyStructs
import Verif.Props.Diff

/-!
# C24: the list edits of a patch are slice edits
-/

namespace Claw

set_option linter.unusedSimpArgs false

/-- The state a client can bring a struct into, as the operations of a patch find it. -/
theorem Reached.pinv {tys : List Ty} {L : LSt} {A : LAbs} (h : Reached tys L A) (hn : NumbersSettled A) :
    ∃ c, PInv tys L A.fields c ∧ (∀ i, obj A.fields c i = A.current.getD i .absent) ∧
      (∀ i, A.shown i = none → c i = none) := by
  obtain ⟨hv, hl, hty⟩ := h.inv
  have lookup : ∀ {fn t}, listsOf tys fn = some t → tys[fn]? = some (.scalar t) := by
    intro fn t e
    simp only [listsOf] at e
    split at e
    · rename_i t' ht
      split at e
      · rw [ht, Option.some.inj e]
      · simp at e
    · simp at e
  refine ⟨fun i => (A.shown i).map (·.items), ⟨hv.rep, hv.len, hl, hv.max, hv.canon, fun i ty hi => hty.get i ty hi,
    hv.cfg, ?_, ?_, ?_, ?_⟩, ?_, fun i hi => by simp [hi]⟩
  · intro fn
    cases hs : A.shown fn with
    | none => exact .inl ⟨by simp, hv.untouched fn hs⟩
    | some sh =>
      obtain ⟨_, id, t, v, d, e1, e2, e3, e4, e5⟩ := hv.touched fn sh hs
      exact .inr ⟨id, t, v, d, e1, e5.obj, by simp [e5.items], lookup e2, e3⟩
  · intro p hp
    have e0 := hv.pend p hp
    cases hs : A.shown p.1 with
    | none => rw [hv.untouched p.1 hs] at e0; simp at e0
    | some sh =>
      obtain ⟨_, id, t, v, d, e1, e2, e3, e4, e5⟩ := hv.touched p.1 sh hs
      rw [e0] at e1
      have := Option.some.inj e1
      subst this
      refine ⟨t, v, d, e5.obj, lookup e2, e3, ?_⟩
      intro k hk
      subst hk
      have := (hn p.1 sh k v hs e5.items).1
      rw [e5.live.2 hp] at this
      simp at this
  · refine hv.nodup.imp_of_mem ?_
    intro p q hp hq hne he
    have e1 := hv.pend p hp
    have e2 := hv.pend q hq
    cases hs1 : A.shown p.1 with
    | none => rw [hv.untouched p.1 hs1] at e1; simp at e1
    | some sh1 =>
      cases hs2 : A.shown q.1 with
      | none => rw [hv.untouched q.1 hs2] at e2; simp at e2
      | some sh2 =>
        obtain ⟨_, id1, t1, v1, d1, f1, _, _, _, f5⟩ := hv.touched p.1 sh1 hs1
        obtain ⟨_, id2, t2, v2, d2, g1, _, _, _, g5⟩ := hv.touched q.1 sh2 hs2
        rw [e1] at f1; rw [e2] at g1
        have a1 := f5.obj
        have a2 := g5.obj
        rw [← Option.some.inj f1, he] at a1
        rw [← Option.some.inj g1, a1] at a2
        simp only [Option.some.injEq, LObj.mk.injEq] at a2
        exact hne a2.1
  · intro fn k v hv'
    cases hs : A.shown fn with
    | none => simp [hs] at hv'
    | some sh =>
      simp only [hs, Option.map_some, Option.some.injEq] at hv'
      exact (hn fn sh k v hs hv').2
  · intro i
    simp only [obj]
    by_cases hi : i < A.fields.length
    · rw [current_getD A i hi]
      cases A.shown i <;> rfl
    · cases hs : A.shown i with
      | none =>
        have h1 : A.fields.length ≤ i := by omega
        simp [List.getD_eq_getElem?_getD, List.getElem?_eq_none h1, LAbs.current, List.getElem?_mapIdx]
      | some sh => exact absurd (hv.touched i sh hs).1 hi

/-- What the list getter of field `i` gives; nil counts as the empty list. -/
def ShowsList (L : LSt) (i : Nat) (t : STy) (v : t.Val) : Prop := ∃ o, L.look i t = .ok o ∧ o.getD t.zero = v

/-- What the getters of all fields give. -/
def ShowsAll (tys : List Ty) (L : LSt) (cur : Nat → Val) : Prop :=
  ∀ i ty, tys[i]? = some ty → (∀ t, ty = .scalar t → t.editable = true → ShowsList L i t (listIn t (cur i))) ∧
    ((∀ t, ty = .scalar t → t.editable = false) → Fld L i ty (cur i))

/-- The invariant of the induction over the operations. -/
structure EditInv (tys : List Ty) (base : List Val) (L : LSt) (r : List Val) (c : Nat → Option Val)
    (cur : Nat → Val) : Prop where
  pinv : PInv tys L r c
  eds : ∀ i t, tys[i]? = some (.scalar t) → t.editable = true → listIn t (obj r c i) = listIn t (cur i)
  rest : ∀ i, (∀ t, tys[i]? = some (.scalar t) → t.editable = false) → obj r c i = cur i
  raw : ∀ i, (∀ k, tys[i]? ≠ some (.scalar (.lnum k))) →
    r.getD i .absent = base.getD i .absent ∨ r.getD i .absent = .absent
  base : base.length = r.length

theorem editable_isList {t : STy} (h : t.editable = true) : t.isList = true := by
  cases t <;> first | rfl | simp [STy.editable] at h

theorem EditInv.shows {tys base L r c cur} (h : EditInv tys base L r c cur) : ShowsAll tys L cur := by
  intro i ty hi
  have hf := h.pinv.fld i ty hi
  refine ⟨?_, ?_⟩
  · intro t ht he
    subst ht
    simp only [Fld, editable_isList he, if_true] at hf
    rcases hf with ⟨a, b⟩ | ⟨v, a, b⟩
    · exact ⟨none, b, by rw [← h.eds i t hi he, a]; rfl⟩
    · exact ⟨some v, b, by rw [← h.eds i t hi he, a]; simp [listIn]⟩
  · intro hne
    rw [← h.rest i (fun t ht => hne t (by rw [hi] at ht; exact Option.some.inj ht))]
    exact hf

theorem sizes_le (r s : List Val) (hl : r.length = s.length)
    (h : ∀ i, (r.getD i .absent).size ≤ (s.getD i .absent).size) : sizes r ≤ sizes s := by
  induction r generalizing s with
  | nil => simp [sizes]
  | cons v r ih =>
    cases s with
    | nil => simp at hl
    | cons w s =>
      have h0 := h 0
      simp at h0
      have := ih s (by simpa using hl) (fun i => by simpa using h (i + 1))
      simp only [sizes]; omega

/-- The operations of a patch, one after the other. -/
theorem edits_run {tys : List Ty} {base : List Val} {fuel : Nat} : ∀ (ops : List POp) (L : LSt) (r : List Val)
    (c : Nat → Option Val) (cur : Nat → Val) (m : Bytes), EditInv tys base L r c cur → OnlyEdits tys ops →
    (∀ n, 8 + sizes (numbersOf tys base (sliceEdits tys cur (ops.take n)).1) < 2 ^ 32) →
    ∃ w r' c', patchLoop (applyOp fuel tys) ⟨L, m, false⟩ (ops.map .ok) = .ok (w, (sliceEdits tys cur ops).2) ∧
      w.shared = false ∧ EditInv tys base w.L r' c' (sliceEdits tys cur ops).1
  | [], L, r, c, cur, m, h, _, _ => ⟨⟨L, m, false⟩, r, c, rfl, rfl, h⟩
  | op :: ops, L, r, c, cur, m, h, ho, hs => by
    obtain ⟨⟨e, he⟩, t, hty, ht⟩ := ho op (by simp)
    have hcur := h.eds _ t hty ht
    have hlt : op.fn.toNat < r.length := by rw [h.pinv.sch]; exact (List.getElem?_eq_some_iff.1 hty).1
    have hsz : t.isSlice = true ∨ ∀ w, e.on t (listIn t (obj r c op.fn.toNat)) = some w →
        8 + sizes (r.set op.fn.toNat (specScalar t w)) < 2 ^ 32 := by
      by_cases hsl : t.isSlice = true
      · exact .inl hsl
      · refine .inr fun w hw => ?_
        have hk : ∃ k, t = .lnum k := by cases t <;> simp [STy.editable, STy.isSlice] at ht hsl; exact ⟨_, rfl⟩
        obtain ⟨k, hk⟩ := hk
        subst hk
        have h1 := hs 1
        rw [hcur] at hw
        simp only [List.take_succ_cons, List.take_zero, sliceEdits, hty, he, hw] at h1
        refine Nat.lt_of_le_of_lt (Nat.add_le_add_left (sizes_le _ _ ?_ ?_) 8) h1
        · simp [numbersOf, h.base]
        · intro i
          by_cases hi : i < r.length
          · have hb : i < base.length := by rw [h.base]; exact hi
            have hR : (numbersOf tys base fun i => if i = op.fn.toNat then .scalar (.lnum k) w else cur i).getD i .absent =
                match tys[i]? with
                | some (.scalar (.lnum k')) => specScalar (.lnum k') (listIn (.lnum k')
                    (if i = op.fn.toNat then .scalar (.lnum k) w else cur i))
                | _ => base.getD i .absent := by
              simp only [numbersOf, List.getD_eq_getElem?_getD, List.getElem?_mapIdx, List.getElem?_eq_getElem hb,
                Option.map_some, Option.getD_some]
              rfl
            rw [hR]
            by_cases hj : i = op.fn.toNat
            · subst hj
              rw [PInv.getD_set_self hlt, hty]
              simp [listIn]
            · rw [PInv.getD_set_ne hj]
              simp only [if_neg hj]
              split
              · rename_i k' hk'
                obtain ⟨v, a1, a2, _⟩ := h.pinv.rawItems hk'
                rw [a1, ← h.eds i _ hk' rfl, a2]
                exact Nat.le_refl _
              · rename_i hne
                rcases h.raw i (fun k' hh => hne k' hh) with hh | hh
                · rw [hh]; exact Nat.le_refl _
                · rw [hh]; simp [Val.size]
          · have : r.length ≤ i := by omega
            simp [List.getD_eq_getElem?_getD, List.getElem?_eq_none, this, Val.size]
    obtain ⟨L1, r1, c1, f1, f2, f3, f4, f5, f6⟩ := h.pinv.edit hty ht he rfl fuel hsz
    rw [hcur] at f1 f3
    have hraw : ∀ i, (∀ k, tys[i]? ≠ some (.scalar (.lnum k))) →
        r1.getD i .absent = base.getD i .absent ∨ r1.getD i .absent = .absent := by
      intro i hi
      by_cases hj : i = op.fn.toNat
      · subst hj
        have hsl : t.isSlice = true := by
          cases t <;> simp [STy.editable, STy.isSlice] at ht ⊢
          exact hi _ hty
        rcases f6 hsl with hh | hh
        · rw [hh]; exact h.raw _ hi
        · exact .inr hh
      · rw [f5 i hj]; exact h.raw i hi
    simp only [List.map_cons, patchLoop, Res.ok_bind, f1]
    cases hw : e.on t (listIn t (cur op.fn.toNat)) with
    | none =>
      simp only [sliceEdits, hty, he, hw, Option.isNone_none, if_true, Bool.false_eq_true, false_and, if_false]
      refine ⟨⟨L1, m, false⟩, r1, c1, rfl, rfl, f2, ?_, ?_, hraw, by rw [h.base, f2.sch, h.pinv.sch]⟩
      · intro i t' hi ht'
        by_cases hj : i = op.fn.toNat
        · subst hj
          rw [hty] at hi
          simp only [Option.some.injEq, Ty.scalar.injEq] at hi
          subst hi
          rw [f3, hw]; rfl
        · rw [f4 i hj]; exact h.eds i t' hi ht'
      · intro i hi
        by_cases hj : i = op.fn.toNat
        · subst hj; exact absurd (hi t hty) (by simp [ht])
        · rw [f4 i hj]; exact h.rest i hi
    | some x =>
      simp only [sliceEdits, hty, he, hw, Option.isNone_some, Bool.false_eq_true, false_and, if_false]
      refine edits_run ops L1 r1 c1 _ m ⟨f2, ?_, ?_, hraw, by rw [h.base, f2.sch, h.pinv.sch]⟩
        (fun o ho' => ho o (by simp [ho'])) ?_
      · intro i t' hi ht'
        by_cases hj : i = op.fn.toNat
        · subst hj
          rw [hty] at hi
          simp only [Option.some.injEq, Ty.scalar.injEq] at hi
          subst hi
          rw [f3, hw]; simp [listIn]
        · rw [f4 i hj, if_neg hj]; exact h.eds i t' hi ht'
      · intro i hi
        by_cases hj : i = op.fn.toNat
        · subst hj; exact absurd (hi t hty) (by simp [ht])
        · rw [f4 i hj, if_neg hj]; exact h.rest i hi
      · intro n
        have := hs (n + 1)
        simpa only [List.take_succ_cons, sliceEdits, hty, he, hw] using this

/-- **C24** Applying a patch of list edits to lists of bools, numbers, strings and byte slices, in any number and
mix, has the effect of the same edits on Go slices: an edit whose index is out of range (or whose item is malformed)
stops the patch with an error and leaves the list as it was, and no other field is changed. The lists of numbers must
not have edits that are not written (see `C24_unwritten_numbers_ignored`). -/
theorem C24_list_edits_partial {tys : List Ty} {L : LSt} {A : LAbs} (h : Reached tys L A) (hn : NumbersSettled A)
    (ops : List POp) (ho : OnlyEdits tys ops) (hmax : ops.length ≤ 10000)
    (hs : ∀ n, 8 + sizes (numbersOf tys A.fields
      (sliceEdits tys (fun i => A.current.getD i .absent) (ops.take n)).1) < 2 ^ 32) :
    ∃ L', applyPatch tys L ⟨1, ops⟩ = .ok (L', (sliceEdits tys (fun i => A.current.getD i .absent) ops).2) ∧
      ShowsAll tys L' (sliceEdits tys (fun i => A.current.getD i .absent) ops).1 := by
  obtain ⟨c, h1, h2, _⟩ := h.pinv hn
  have hI : EditInv tys A.fields L A.fields c (fun i => A.current.getD i .absent) :=
    ⟨h1, fun i t _ _ => by rw [h2], fun i _ => h2 i, fun _ _ => .inl rfl, rfl⟩
  obtain ⟨w, r', c', e1, _, e3⟩ := edits_run (fuel := maxPatchDepth) ops L _ c _ [] hI ho hs
  refine ⟨w.L, ?_, e3.shows⟩
  simp only [applyPatch, ne_eq, not_true_eq_false, if_false]
  rw [if_neg (by simp only [maxPatchOps]; omega), e1]
  rfl

/-! ### Lists of structs -/

/-- The record in the item: the bytes are those of a struct of the item type (C03). -/
structure ItemOf (ctys : List Ty) (d : Bytes) (vs : List Val) : Prop where
  seg : SegOf d vs
  canon : Canons vs
  len : vs.length ≤ 65536
  small : 8 + sizes vs < 2 ^ 32
  typed : FieldsHaveTy vs ctys

/-- The fields of the struct after an operation on field `fn`. -/
def Rewritten (tys : List Ty) (L' : LSt) (A : LAbs) (fn : Nat) (v : Val) : Prop :=
  ∀ i ty, tys[i]? = some ty → Fld L' i ty (if i = fn then v else A.current.getD i .absent)

theorem rewritten_of {tys : List Ty} {L' : LSt} {A : LAbs} {r' : List Val} {c' : Nat → Option Val} {fn : Nat} {v : Val}
    (h : PInv tys L' r' c') (h1 : obj r' c' fn = v) (h2 : ∀ i, i ≠ fn → obj r' c' i = A.current.getD i .absent) :
    Rewritten tys L' A fn v := by
  intro i ty hi
  have := h.fld i ty hi
  by_cases hj : i = fn
  · subst hj; rw [if_pos rfl, ← h1]; exact this
  · rw [if_neg hj, ← h2 i hj]; exact this

theorem index_ok {i : Int32} {n : Nat} (h : 0 ≤ i.toInt ∧ i.toInt ≤ n) : ¬ i < 0 ∧ i.toInt.toNat ≤ n := by
  refine ⟨?_, by omega⟩
  intro h2
  have := Int32.lt_iff_toInt_lt.1 h2
  simp at this
  omega

section Structs
variable {tys : List Ty} {L : LSt} {A : LAbs} {ctys : List Ty} {op : POp} {vs : List Val}

theorem structs_start (h : Reached tys L A) (hn : NumbersSettled A) (hty : tys[op.fn.toNat]? = some (.structs ctys)) :
    ∃ c, PInv tys L A.fields c ∧ (∀ i, obj A.fields c i = A.current.getD i .absent) ∧
      A.fields.getD op.fn.toNat .absent = A.current.getD op.fn.toNat .absent := by
  obtain ⟨c, h1, h2, _⟩ := h.pinv hn
  refine ⟨c, h1, h2, ?_⟩
  rw [← h2, obj, h1.structs_uncached hty]; rfl

theorem structs_done {c : Nat → Option Val} (h1 : PInv tys L A.fields c)
    (h2 : ∀ i, obj A.fields c i = A.current.getD i .absent) (hty : tys[op.fn.toNat]? = some (.structs ctys))
    {items : List (List Val)} {L' : LSt} (h : PInv tys L' (A.fields.set op.fn.toNat (specStructs items)) c) :
    Rewritten tys L' A op.fn.toNat (specStructs items) := by
  have hlt : op.fn.toNat < A.fields.length := by rw [h1.sch]; exact (List.getElem?_eq_some_iff.1 hty).1
  refine rewritten_of h ?_ ?_
  · rw [obj, h1.structs_uncached hty, Option.getD_none, PInv.getD_set_self hlt]
  · intro i hi
    rw [← h2, obj, obj, PInv.getD_set_ne hi]

/-- **C24** `ListSet` on a list of structs is the slice edit. -/
theorem C24_struct_list_set (h : Reached tys L A) (hn : NumbersSettled A) (hop : op.ty = PListSet)
    (hty : tys[op.fn.toNat]? = some (.structs ctys)) (hd : ItemOf ctys op.data vs)
    (hi : 0 ≤ op.index.toInt ∧ op.index.toInt < (itemsIn (A.current.getD op.fn.toNat .absent)).length) (fuel : Nat)
    (hs : 8 + sizes (A.fields.set op.fn.toNat (.structs ((itemsIn (A.current.getD op.fn.toNat .absent)).set
      op.index.toInt.toNat vs))) < 2 ^ 32) :
    ∃ L', applyOp fuel tys L op = .ok (L', false) ∧ Rewritten tys L' A op.fn.toNat
      (.structs ((itemsIn (A.current.getD op.fn.toNat .absent)).set op.index.toInt.toNat vs)) := by
  obtain ⟨c, h1, h2, h3⟩ := structs_start h hn hty
  rw [← h3] at hi hs ⊢
  obtain ⟨ds, e1, e2, e3, e4, e5⟩ := h1.structItems hty
  generalize itemsIn (A.fields.getD op.fn.toNat .absent) = items at *
  have hne : items ≠ [] := by intro e; rw [e] at hi; simp at hi; omega
  have hsp : specStructs (items.set op.index.toInt.toNat vs) = .structs (items.set op.index.toInt.toNat vs) := by
    simp [specStructs, hne]
  obtain ⟨c0, c1, f1, f2, f3, _⟩ := decode_item hd.seg ctys.length hd.canon hd.len hd.small
  obtain ⟨L', g1, g2, _⟩ := h1.storeStructs hty (e2.set op.index.toInt.toNat hd.seg)
    ((itemsCanon_iff _).2 fun x hx => by
      rcases List.mem_or_eq_of_mem_set hx with hx | hx
      · exact (itemsCanon_iff _).1 e3 x hx
      · rw [hx]; exact ⟨hd.len, hd.canon⟩)
    ((itemsHaveTy_iff _ _).2 fun x hx => by
      rcases List.mem_or_eq_of_mem_set hx with hx | hx
      · exact (itemsHaveTy_iff _ _).1 e4 x hx
      · rw [hx]; exact hd.typed) (by rw [hsp]; exact hs)
  refine ⟨L', ?_, ?_⟩
  · obtain ⟨i1, i2⟩ := index_ok (i := op.index) (n := items.length) ⟨hi.1, by omega⟩
    have hlen : ds.length = items.length := (itemSegs_sum ds _ e2).2
    rw [applyOp.eq_def]
    simp +decide only [hop, hty, if_false, if_true, Option.isSome_some, true_and, i1]
    simp only [applyListSet, e1, if_neg hne, Res.ok_bind]
    rw [if_neg (by omega)]
    simp only [f1, Res.ok_bind, f2, f3, g1]
    rfl
  · rw [← hsp]; exact structs_done h1 h2 hty g2

/-- An index out of range is an error that changes nothing, for all edits of lists of structs. -/
theorem C24_struct_list_range (h : Reached tys L A) (hn : NumbersSettled A)
    (hty : tys[op.fn.toNat]? = some (.structs ctys))
    (hop : (op.ty = PListSet ∨ op.ty = PListRemove) ∧
        (op.index.toInt < 0 ∨ (itemsIn (A.current.getD op.fn.toNat .absent)).length ≤ op.index.toInt) ∨
      op.ty = PListInsert ∧
        (op.index.toInt < 0 ∨ (itemsIn (A.current.getD op.fn.toNat .absent)).length < op.index.toInt)) (fuel : Nat) :
    applyOp fuel tys L op = .ok (L, true) := by
  obtain ⟨c, h1, h2, h3⟩ := structs_start h hn hty
  rw [← h3] at hop
  obtain ⟨ds, e1, e2, e3, e4, e5⟩ := h1.structItems hty
  generalize itemsIn (A.fields.getD op.fn.toNat .absent) = items at *
  have hlen : ds.length = items.length := (itemSegs_sum ds _ e2).2
  have hneg : op.index < 0 ↔ op.index.toInt < 0 := by rw [Int32.lt_iff_toInt_lt]; simp
  rw [applyOp.eq_def]
  rcases hop with ⟨hop | hop, hi⟩ | ⟨hop, hi⟩
  · simp +decide only [hop, hty, if_false, if_true, Option.isSome_some, true_and]
    split
    · rfl
    · rename_i hh
      rw [hneg] at hh
      simp only [applyListSet, e1, Res.ok_bind]
      by_cases hne : items = []
      · rw [if_pos hne]; rfl
      · rw [if_neg hne]; simp only; rw [if_pos (by omega)]; rfl
  · simp +decide only [hop, hty, if_false, if_true, Option.isSome_some, true_and]
    split
    · rfl
    · rename_i hh
      rw [hneg] at hh
      simp only [applyListRemove, e1, Res.ok_bind]
      by_cases hne : items = []
      · rw [if_pos hne]; rfl
      · rw [if_neg hne]; simp only; rw [if_pos (by omega)]; rfl
  · simp +decide only [hop, hty, if_false, if_true, Option.isSome_some, true_and]
    split
    · rfl
    · rename_i hh
      rw [hneg] at hh
      simp only [applyListInsert, e1, Res.ok_bind]
      have : ((if items = [] then none else some ds).getD []).length = items.length := by
        by_cases hne : items = []
        · simp [hne]
        · simp [hne, hlen]
      rw [if_pos (by rw [this]; omega)]
      rfl

/-- C24 fails for `ListInsert` on a list of structs: the items that are there are written twice, once in front and
once around the new item. -/
theorem C24_struct_insert_duplicates (h : Reached tys L A) (hn : NumbersSettled A) (hop : op.ty = PListInsert)
    (hty : tys[op.fn.toNat]? = some (.structs ctys)) (hd : ItemOf ctys op.data vs)
    (hi : 0 ≤ op.index.toInt ∧ op.index.toInt ≤ (itemsIn (A.current.getD op.fn.toNat .absent)).length) (fuel : Nat)
    (items : List (List Val)) (hitems : items = itemsIn (A.current.getD op.fn.toNat .absent) ++
      (itemsIn (A.current.getD op.fn.toNat .absent)).insertIdx op.index.toInt.toNat vs)
    (hs : 8 + sizes (A.fields.set op.fn.toNat (.structs items)) < 2 ^ 32) :
    ∃ L', applyOp fuel tys L op = .ok (L', false) ∧ Rewritten tys L' A op.fn.toNat (.structs items) := by
  obtain ⟨c, h1, h2, h3⟩ := structs_start h hn hty
  rw [← h3] at hi hitems
  obtain ⟨ds, e1, e2, e3, e4, e5⟩ := h1.structItems hty
  generalize itemsIn (A.fields.getD op.fn.toNat .absent) = old at *
  obtain ⟨i1, i2⟩ := index_ok (i := op.index) (n := old.length) hi
  rw [insertIdx_eq_split _ _ _ i2] at hitems
  have hne : items ≠ [] := by rw [hitems]; simp
  have hsp : specStructs items = .structs items := by simp [specStructs, hne]
  obtain ⟨c0, c1, f1, f2, f3, _⟩ := decode_item hd.seg ctys.length hd.canon hd.len hd.small
  have hlen : ds.length = old.length := (itemSegs_sum ds _ e2).2
  have hmem : ∀ x ∈ items, x ∈ old ∨ x = vs := by
    intro x hx
    rw [hitems] at hx
    simp only [List.mem_append, List.mem_cons] at hx
    rcases hx with hx | hx | hx | hx
    · exact .inl hx
    · exact .inl (List.mem_of_mem_take hx)
    · exact .inr hx
    · exact .inl (List.mem_of_mem_drop hx)
  have hsegs : ItemSegs (ds ++ (ds.take op.index.toInt.toNat ++ op.data :: ds.drop op.index.toInt.toNat)) items := by
    rw [hitems]
    exact e2.append ((e2.take _).append ((ItemSegs.one hd.seg).append (e2.drop _)))
  obtain ⟨L', g1, g2, _⟩ := h1.storeStructs hty hsegs
    ((itemsCanon_iff _).2 fun x hx => by
      rcases hmem x hx with hx | hx
      · exact (itemsCanon_iff _).1 e3 x hx
      · rw [hx]; exact ⟨hd.len, hd.canon⟩)
    ((itemsHaveTy_iff _ _).2 fun x hx => by
      rcases hmem x hx with hx | hx
      · exact (itemsHaveTy_iff _ _).1 e4 x hx
      · rw [hx]; exact hd.typed) (by rw [hsp]; exact hs)
  refine ⟨L', ?_, ?_⟩
  · have hg : (if old = [] then none else some ds).getD [] = ds := by
      by_cases he : old = []
      · subst he
        cases ds with
        | nil => rfl
        | cons => simp at hlen
      · simp [he]
    rw [applyOp.eq_def]
    simp +decide only [hop, hty, if_false, if_true, Option.isSome_some, true_and, i1]
    simp only [applyListInsert, e1, Res.ok_bind, hg]
    rw [if_neg (by omega)]
    simp only [f1, Res.ok_bind, f2, f3, g1]
    rfl
  · rw [← hsp]; exact structs_done h1 h2 hty g2

/-- C24 fails for `ListRemove` on a list of two or more structs in the same way: the list gets longer. -/
theorem C24_struct_remove_duplicates (h : Reached tys L A) (hn : NumbersSettled A) (hop : op.ty = PListRemove)
    (hty : tys[op.fn.toNat]? = some (.structs ctys))
    (hi : 0 ≤ op.index.toInt ∧ op.index.toInt < (itemsIn (A.current.getD op.fn.toNat .absent)).length)
    (hmore : 2 ≤ (itemsIn (A.current.getD op.fn.toNat .absent)).length) (fuel : Nat)
    (items : List (List Val)) (hitems : items = itemsIn (A.current.getD op.fn.toNat .absent) ++
      (itemsIn (A.current.getD op.fn.toNat .absent)).eraseIdx op.index.toInt.toNat)
    (hs : 8 + sizes (A.fields.set op.fn.toNat (.structs items)) < 2 ^ 32) :
    ∃ L', applyOp fuel tys L op = .ok (L', false) ∧ Rewritten tys L' A op.fn.toNat (.structs items) := by
  obtain ⟨c, h1, h2, h3⟩ := structs_start h hn hty
  rw [← h3] at hi hitems hmore
  obtain ⟨ds, e1, e2, e3, e4, e5⟩ := h1.structItems hty
  generalize itemsIn (A.fields.getD op.fn.toNat .absent) = old at *
  obtain ⟨i1, i2⟩ := index_ok (i := op.index) (n := old.length) ⟨hi.1, by omega⟩
  rw [List.eraseIdx_eq_take_drop_succ] at hitems
  have hold : old ≠ [] := by intro e; rw [e] at hmore; simp at hmore
  have hne : items ≠ [] := by rw [hitems]; simp [hold]
  have hsp : specStructs items = .structs items := by simp [specStructs, hne]
  have hlen : ds.length = old.length := (itemSegs_sum ds _ e2).2
  have hmem : ∀ x ∈ items, x ∈ old := by
    intro x hx
    rw [hitems] at hx
    simp only [List.mem_append] at hx
    rcases hx with hx | hx | hx
    · exact hx
    · exact List.mem_of_mem_take hx
    · exact List.mem_of_mem_drop hx
  have hsegs : ItemSegs (ds ++ (ds.take op.index.toInt.toNat ++ ds.drop (op.index.toInt.toNat + 1))) items := by
    rw [hitems]
    exact e2.append ((e2.take _).append (e2.drop _))
  obtain ⟨L', g1, g2, _⟩ := h1.storeStructs hty hsegs
    ((itemsCanon_iff _).2 fun x hx => (itemsCanon_iff _).1 e3 x (hmem x hx))
    ((itemsHaveTy_iff _ _).2 fun x hx => (itemsHaveTy_iff _ _).1 e4 x (hmem x hx)) (by rw [hsp]; exact hs)
  refine ⟨L', ?_, ?_⟩
  · rw [applyOp.eq_def]
    simp +decide only [hop, hty, if_false, if_true, Option.isSome_some, true_and, i1]
    simp only [applyListRemove, e1, if_neg hold, Res.ok_bind]
    rw [if_neg (by omega), if_neg (by omega)]
    simp only [g1, Res.ok_bind]
    rfl
  · rw [← hsp]; exact structs_done h1 h2 hty g2

/-- C24: removing the only item of a list of structs does work. -/
theorem C24_struct_remove_last (h : Reached tys L A) (hn : NumbersSettled A) (hop : op.ty = PListRemove)
    (hty : tys[op.fn.toNat]? = some (.structs ctys)) (hi : op.index.toInt = 0)
    (hone : (itemsIn (A.current.getD op.fn.toNat .absent)).length = 1) (fuel : Nat) :
    ∃ L', applyOp fuel tys L op = .ok (L', false) ∧ Rewritten tys L' A op.fn.toNat .absent := by
  obtain ⟨c, h1, h2, h3⟩ := structs_start h hn hty
  rw [← h3] at hone
  obtain ⟨ds, e1, e2, e3, e4, e5⟩ := h1.structItems hty
  generalize itemsIn (A.fields.getD op.fn.toNat .absent) = old at *
  obtain ⟨i1, i2⟩ := index_ok (i := op.index) (n := old.length) (by omega)
  have hold : old ≠ [] := by intro e; rw [e] at hone; simp at hone
  have hlen : ds.length = old.length := (itemSegs_sum ds _ e2).2
  have hlt : op.fn.toNat < A.fields.length := by rw [h1.sch]; exact (List.getElem?_eq_some_iff.1 hty).1
  obtain ⟨L', g1, g2, _⟩ := h1.clear hty
  refine ⟨L', ?_, ?_⟩
  · rw [applyOp.eq_def]
    simp +decide only [hop, hty, if_false, if_true, Option.isSome_some, true_and, i1]
    simp only [applyListRemove, e1, if_neg hold, Res.ok_bind]
    rw [if_neg (by omega), if_pos (by omega)]
    simp only [g1, Res.ok_bind]
    rfl
  · refine rewritten_of g2 (by rw [obj, upd_self, Option.getD_none, PInv.getD_set_self hlt]) ?_
    intro i hi
    rw [← h2, PInv.obj_set _ _ _ _ hi]

/-- C24: a negative index in a `ListStructPatch` is not an error but a panic. -/
theorem C24_struct_patch_negative_panics (h : Reached tys L A) (hop : op.ty = PListStructPatch)
    (hty : tys[op.fn.toNat]? = some (.structs ctys)) (hi : op.index.toInt < 0)
    (hne : itemsIn (A.current.getD op.fn.toNat .absent) ≠ []) (fuel : Nat) : applyOp (fuel + 1) tys L op = .panic := by
  have hf := reached_fld h op.fn.toNat _ hty
  simp only [Fld] at hf
  have hneg : op.index < 0 := by rw [Int32.lt_iff_toInt_lt]; simpa using hi
  rcases hf with ⟨a, _⟩ | ⟨items, xs, a, _, b, _⟩
  · rw [a] at hne; simp [itemsIn] at hne
  · rw [applyOp.eq_def]
    simp +decide only [hop, hty, if_false, if_true, b, Res.ok_bind, hneg]

end Structs

/-! ### What is written

`ListSet` on a list of bools, strings or byte slices edits the object of the list but does not register it. -/

theorem listSet_registers {tys : List Ty} {L L' : LSt} {r : List Val} {c : Nat → Option Val} (h : PInv tys L r c)
    {fn : Nat} {t : STy} (hty : tys[fn]? = some (.scalar t)) (hs : t.isSlice = true) (i : Nat) (d : Bytes) (err : Bool)
    (he : applyListSet L (some (.scalar t)) fn i d = .ok (L', err)) :
    L'.dirtyLists = L.dirtyLists ∧ ∃ c', PInv tys L' r c' := by
  obtain ⟨o, L1, c1, e1, e2, e3, _, e5, e6⟩ := h.getL hty (PInv.isList_of_slice hs)
  have hm : applyListSet L (some (.scalar t)) fn i d = (do
      let (o, L) ← L.getL fn t
      match o with
      | none => return (L, true)
      | some id =>
        let v ← L.items id t
        if i ≥ t.len v then return (L, true)
        else
          match t.setItem i d v with
          | none => return (L, true)
          | some w => return ({ L with heap := L.heap.set id (LObj.mk fn t w true) }, false)) := by
    cases t <;> simp only [STy.isSlice, Bool.false_eq_true] at hs <;> rfl
  rw [hm, e1] at he
  simp only [Res.ok_bind] at he
  rcases e6 with ⟨a, _⟩ | ⟨id, v, a1, a2, a3, a4⟩
  · subst a
    simp at he
    rw [← he.1]; exact ⟨e3, c1, e2⟩
  · subst a1
    simp only [a3, Res.ok_bind] at he
    split at he
    · simp at he; rw [← he.1]; exact ⟨e3, c1, e2⟩
    · cases hw : t.setItem i d v with
      | none => simp [hw] at he; rw [← he.1]; exact ⟨e3, c1, e2⟩
      | some w =>
        simp [hw] at he
        rw [← he.1]
        exact ⟨e3, _, e2.setHeap hty hs a2 a4 w⟩

theorem marshal_clean {tys : List Ty} {L : LSt} {r : List Val} {c : Nat → Option Val} (h : PInv tys L r c)
    (hd : L.dirtyLists = []) : ∃ L2, L.marshal = .ok (hdr 0 FTStruct (total (encs r 0)) ++ (encs r 0).flatten, L2) := by
  refine ⟨{ L with dirtyLists := [] }, ?_⟩
  simp only [LSt.marshal, hd, LSt.syncAll, Res.ok_bind, marshal_rep h.rep h.cfg.1]
  rfl

/-- C24 fails on the wire: if no list is waiting to be written (say the struct was just decoded), a `ListSet` on a
list of bools, strings or byte slices returns no error and the getter shows the new item (`C24_list_edits_partial`),
but `Marshal` writes the bytes it would have written without the patch. -/
theorem C24_set_not_written {tys : List Ty} {L L' : LSt} {A : LAbs} (h : Reached tys L A) (hn : NumbersSettled A)
    (hc : ∀ i sh, A.shown i = some sh → sh.live = false) {op : POp} (hop : op.ty = PListSet) {t : STy}
    (hty : tys[op.fn.toNat]? = some (.scalar t)) (hs : t.isSlice = true) (fuel : Nat)
    (he : applyOp fuel tys L op = .ok (L', false)) :
    ∃ b L1 L2, L.marshal = .ok (b, L1) ∧ L'.marshal = .ok (b, L2) := by
  obtain ⟨c, h1, _, _⟩ := h.pinv hn
  have hd : L.dirtyLists = [] := by
    obtain ⟨hv, _⟩ := h.inv
    apply List.eq_nil_iff_forall_not_mem.2
    intro p hp
    have e0 := hv.pend p hp
    cases hsh : A.shown p.1 with
    | none => rw [hv.untouched p.1 hsh] at e0; simp at e0
    | some sh =>
      obtain ⟨_, id, t, v, d, e1, _, _, _, e5⟩ := hv.touched p.1 sh hsh
      rw [e0] at e1
      have := Option.some.inj e1
      subst this
      have := e5.live.2 hp
      rw [hc p.1 sh hsh] at this
      simp at this
  rw [applyOp.eq_def] at he
  simp +decide only [hop, hty, if_false, if_true, Option.isSome_some, true_and] at he
  split at he
  · simp at he
  · obtain ⟨g1, c', g2⟩ := listSet_registers h1 hty hs _ _ _ he
    obtain ⟨L1, k1⟩ := marshal_clean h1 hd
    obtain ⟨L2, k2⟩ := marshal_clean g2 (by rw [g1, hd])
    exact ⟨_, L1, L2, k1, k2⟩

/-! ### Cases -/

def editTys : List Ty := [.scalar .lstr, .scalar (.lnum .u16), .structs [.scalar .u8]]

/-- Two strings and two numbers set by the client, then marshalled. -/
def editProg : List LOp :=
  [.edit 0 .lstr (fun _ => some [[97], [98, 98, 98, 98]]), .edit 1 (.lnum .u16) (fun _ => some [7, 300]),
   .call (.nestList 2 1 [[.set 0 .u8 1], [.set 0 .u8 2]]), .marshal]

def editAbs : LAbs := LAbs.steps ⟨List.replicate 3 .absent, fun _ => none⟩ editProg

theorem editAbs_eq : editAbs.fields = [.scalar .lstr [[97], [98, 98, 98, 98]], .scalar (.lnum .u16) [7, 300],
      .structs [[.scalar .u8 1], [.scalar .u8 2]]] ∧
    editAbs.shown 0 = some ⟨false, .scalar .lstr [[97], [98, 98, 98, 98]]⟩ ∧
    editAbs.shown 1 = some ⟨false, .scalar (.lnum .u16) [7, 300]⟩ ∧ ∀ i, 2 ≤ i → editAbs.shown i = none := by
  refine ⟨?_, ?_, ?_, ?_⟩
  all_goals
    simp [editAbs, editProg, LAbs.steps, LAbs.step, Op.spec, LAbs.setShown, LAbs.touch, specScalar, STy.isZero,
      specStructs, specItems, specOps, List.replicate, Val.isAbsent, listIn, STy.zero, List.mapIdx_cons, LAbs.encoded,
      LAbs.flushed, stored]
  intro i hi
  rw [if_neg (by omega), if_neg (by omega)]

theorem edit_demo : ∃ L, Reached editTys L editAbs := by
  obtain ⟨s, e, _⟩ := new_rep 3
  have hty : ListsTyped (listsOf editTys) (List.replicate 3 .absent) := by
    intro fn t _; left; simp; rcases fn with _ | _ | _ | _ <;> rfl
  obtain ⟨hi, _⟩ := begins_inv (.created e) (by decide) hty
  have hf : LFits (listsOf editTys) ⟨List.replicate 3 .absent, fun _ => none⟩ editProg := by
    simp only [editProg, LFits]
    refine ⟨⟨by decide, rfl, rfl, _, rfl, ?_⟩, ⟨by decide, rfl, rfl, _, rfl, ?_⟩, ⟨?_, ?_, ?_⟩, ?_, trivial⟩
    · simp [STy.Clean, STy.Storable]; decide
    · simp [STy.Clean, STy.Storable]
    · simp [Op.Fits, FitsItems, FitsFrom, STy.Clean, STy.Storable, Op.spec, LAbs.step, LAbs.setShown]; decide
    · intro fn h; simp [Op.field] at h; subst h; rfl
    · simp [LAbs.step, LAbs.setShown, Op.spec, specStructs, specItems, specOps, specScalar, STy.isZero, List.replicate,
        sizes, Val.size, itemSizes, scalarSize]
    · intro p
      simp only [LAbs.flushed, LAbs.step, LAbs.setShown, Op.spec, specStructs, specItems, specOps, specScalar, STy.isZero,
        List.replicate, LAbs.touch, List.mapIdx_cons, List.mapIdx_nil]
      simp [sizes, Val.size, itemSizes, scalarSize, stored, specScalar, STy.isZero, Val.isAbsent, itemBytes, NTy.size]
      cases p 0 <;> cases p 1 <;> simp [Val.size, scalarSize, itemBytes, NTy.size]
  obtain ⟨L, e1, _⟩ := lops_inv editProg hi hf
  refine ⟨L, .mk (by decide) (.created e) hty hf e1 ?_⟩
  show FieldsHaveTy editAbs.fields editTys
  rw [editAbs_eq.1]
  simp [editTys, FieldsHaveTy, Val.HasTy, ItemsHaveTy]

theorem edit_demo_settled : NumbersSettled editAbs := by
  intro fn sh k v h1 h2
  obtain ⟨e0, e1, e2, e3⟩ := editAbs_eq
  rcases fn with _ | _ | fn
  · rw [e1] at h1; simp at h1; subst h1; simp at h2
  · rw [e2] at h1
    simp at h1
    subst h1
    simp only [Val.scalar.injEq, STy.lnum.injEq] at h2
    obtain ⟨hk, hv⟩ := h2
    subst hk
    simp only [heq_eq_eq] at hv
    subst hv
    rw [e0]
    exact ⟨rfl, by simp [specScalar, STy.isZero]⟩
  · rw [e3 _ (by omega)] at h1; simp at h1

/-- Insert "c" at index 1, remove the first number, then an index out of range: the first two edits are there. -/
def editOps : List POp :=
  [⟨0, PListInsert, 1, [99]⟩, ⟨1, PListRemove, 0, []⟩, ⟨0, PListSet, 3, [100]⟩, ⟨1, PListInsert, 0, [1, 0]⟩]

example : OnlyEdits editTys editOps := by
  intro op h
  simp only [editOps, List.mem_cons, List.not_mem_nil, or_false] at h
  rcases h with rfl | rfl | rfl | rfl
  all_goals exact ⟨⟨_, by simp +decide [POp.edit]; rfl⟩, _, rfl, rfl⟩

example : (sliceEdits editTys (fun i => editAbs.current.getD i .absent) editOps).2 = true ∧
    (sliceEdits editTys (fun i => editAbs.current.getD i .absent) editOps).1 0 = .scalar .lstr [[97], [99], [98, 98, 98, 98]] ∧
    (sliceEdits editTys (fun i => editAbs.current.getD i .absent) editOps).1 1 = .scalar (.lnum .u16) [300] := by
  obtain ⟨e0, e1, e2, e3⟩ := editAbs_eq
  have hc : editAbs.current = [.scalar .lstr [[97], [98, 98, 98, 98]], .scalar (.lnum .u16) [7, 300],
      .structs [[.scalar .u8 1], [.scalar .u8 2]]] := by
    simp [LAbs.current, e0, e1, e2, e3, List.mapIdx_cons]
  simp +decide [hc, editOps, sliceEdits, editTys, POp.edit, LEdit.on, LEdit.slice, listIn]

/-- A struct item with one field. -/
example : ItemOf [.scalar .u8] (hdr 0 FTStruct (total (encs [.scalar .u8 5] 0)) ++ (encs [.scalar .u8 5] 0).flatten)
    [.scalar .u8 5] :=
  ⟨⟨0, by decide, rfl⟩, by simp [Canons, Val.Canon, STy.isZero, STy.Clean, STy.Storable], by simp,
    by simp [sizes, Val.size, scalarSize], by simp [FieldsHaveTy, Val.HasTy]⟩

/-- C24 fails for a list of numbers with edits that are not yet written: `ListInsert` does not see them. Here the
getter shows one number, but inserting behind it is "out of range"; and what is inserted in front of it is lost when
the struct is marshalled. -/
theorem C24_unwritten_numbers_ignored : ∃ s L, run 1 [] = .ok s ∧
    runLOps [.edit 0 (.lnum .u8) (fun v => some (v ++ [1]))] (LSt.ofSt s) = .ok L ∧
    L.look 0 (.lnum .u8) = .ok (some [1]) ∧
    (∃ L', applyOp 100 [.scalar (.lnum .u8)] L ⟨0, PListInsert, 1, [2]⟩ = .ok (L', true)) ∧
    ∃ L' b L2, applyOp 100 [.scalar (.lnum .u8)] L ⟨0, PListInsert, 0, [2]⟩ = .ok (L', false) ∧
      L'.marshal = .ok (b, L2) ∧ ∃ b' L3, L.marshal = .ok (b', L3) ∧ b = b' := by
  refine ⟨_, _, rfl, rfl, ?_, ⟨_, rfl⟩, _, _, _, rfl, rfl, _, _, rfl, ?_⟩
  · decide +kernel
  · decide +kernel

end Claw
