import Verif.Lemmas.Wire
import Verif.Spec.ListCache

/-!
# The list cache implements the specification
-/

namespace Claw

set_option linter.unusedSimpArgs false

/-- Without recording, syncing is what the immediate setter does. -/
theorem sync_eq (t : STy) (s : St) (fn : Nat) (v : t.Val) (hl : t.isList = true)
    (hr : s.recording = false) : t.sync s fn v = t.set s fn v := by
  cases t <;> simp only [STy.isList, Bool.false_eq_true] at hl <;>
    simp [STy.sync, STy.set, setListBools, setListNums, setListItems, storeList, syncList,
      St.recordOp, hr]

theorem getList_absent {r : Nat} {s : St} {fs : List Bytes} (h : Rep r s fs) (i : Nat)
    (hb : blob fs i = []) (t : STy) : t.getList s i = .ok none := by
  cases t <;> simp [STy.getList, getListBools, getListItems, fieldBytes_absent h i (Or.inr hb),
    getListNums_absent h i (Or.inr hb)]

theorem getList_of_get (t : STy) (s : St) (i : Nat) (v : t.Val) (hl : t.isList = true)
    (hz : t.isZero v = false) (h : t.get s i = .ok v) : t.getList s i = .ok (some v) := by
  cases t <;> simp only [STy.isList, Bool.false_eq_true] at hl <;>
    simp only [STy.get, STy.getList] at h ⊢
  case lbool =>
    cases hg : getListBools s i with
    | ok o =>
      rw [hg] at h
      cases o with
      | none => simp at h; subst h; simp [STy.isZero] at hz
      | some w => simp at h; rw [h]
    | panic => rw [hg] at h; simp at h
    | hang => rw [hg] at h; simp at h
  case lnum k =>
    cases hg : getListNums k s i with
    | ok o =>
      rw [hg] at h
      cases o with
      | none => simp at h; subst h; simp [STy.isZero] at hz
      | some w => simp at h; simp [h]
    | panic => rw [hg] at h; simp at h
    | hang => rw [hg] at h; simp at h
  case lstr =>
    cases hg : getListItems s i with
    | ok o =>
      rw [hg] at h
      cases o with
      | none => simp at h; subst h; simp [STy.isZero] at hz
      | some w => simp at h; rw [h]
    | panic => rw [hg] at h; simp at h
    | hang => rw [hg] at h; simp at h
  case lbytes =>
    cases hg : getListItems s i with
    | ok o =>
      rw [hg] at h
      cases o with
      | none => simp at h; subst h; simp [STy.isZero] at hz
      | some w => simp at h; rw [h]
    | panic => rw [hg] at h; simp at h
    | hang => rw [hg] at h; simp at h

/-- Writing a list into the segment. -/
theorem sync_rep {s : St} {vs : List Val} (h : Rep 0 s (encs vs 0)) (hl : s.idx.length = vs.length)
    (hm : vs.length ≤ 65536) (hrec : s.recording = false) (fn : Nat) (hfn : fn < vs.length) (t : STy) (v : t.Val)
    (ht : t.isList = true) (hs : 8 + sizes (vs.set fn (specScalar t v)) < 2 ^ 32) :
    ∃ s', t.sync s fn v = .ok s' ∧ Rep 0 s' (encs (vs.set fn (specScalar t v)) 0) ∧ SameCfg s s' := by
  have hsz : scalarSize t v < 2 ^ 32 := by
    cases hz : t.isZero v with
    | true => exact scalarSize_zero t v hz
    | false =>
      have := sizes_ge (vs.set fn (specScalar t v)) fn
      simp only [List.getD_eq_getElem?_getD, List.getElem?_set_self hfn,
        Option.getD_some, specScalar, hz, Bool.false_eq_true, if_false, Val.size] at this hs
      omega
  obtain ⟨s', e, hr', hc', _⟩ := store_list_rep h (by omega) hm fn (by omega) (specScalar t v)
      (specScalar_stored (list_storable ht)) (t.recData v) hs
      (scalarBlob fn t v) (by intro h; rw [isAbsent_specScalar] at h; simp [specScalar, h, Val.enc])
  refine ⟨s', ?_, hr', hc'⟩
  rw [sync_eq t s fn v ht hrec, set_eq_list t s fn v hsz (list_storable ht) ht, ← isAbsent_specScalar]; exact e

/-- Object `id` is the list of field `fn` as specified. -/
structure ObjOf (L : LSt) (A : LAbs) (fn id : Nat) (sh : Shown) (t : STy) (v : t.Val) (d : Bool) : Prop where
  obj : L.heap[id]? = some ⟨fn, t, v, d⟩
  items : sh.items = .scalar t v
  live : sh.live = true ↔ (fn, id) ∈ L.dirtyLists
  clean : sh.live = true → d = false → A.fields.getD fn .absent = specScalar t v

/-- The model state implements the specified state. -/
structure LInv (lists : Nat → Option STy) (L : LSt) (A : LAbs) : Prop where
  rep : Rep 0 L.st (encs A.fields 0)
  len : L.st.idx.length = A.fields.length
  max : A.fields.length ≤ 65536
  canon : Canons A.fields
  cfg : L.st.isSetEnabled = false ∧ L.st.recording = false
  typed : ∀ fn t, lists fn = some t → A.fields.getD fn .absent = .absent ∨
    ∃ v, A.fields.getD fn .absent = .scalar t v
  untouched : ∀ fn, A.shown fn = none → L.lists fn = none
  touched : ∀ fn sh, A.shown fn = some sh → fn < A.fields.length ∧ ∃ id t v d, L.lists fn = some id ∧
    lists fn = some t ∧ t.isList = true ∧ t.Clean v ∧ ObjOf L A fn id sh t v d
  pend : ∀ p ∈ L.dirtyLists, L.lists p.1 = some p.2
  nodup : L.dirtyLists.Pairwise (fun p q => p.1 ≠ q.1)

theorem listIn_scalar (t : STy) (v : t.Val) : listIn t (.scalar t v) = v := by
  simp [listIn]

theorem zero_clean (t : STy) : t.Clean t.zero := by 
  cases t
  case map kt vt =>
    simp only [STy.Clean, STy.zero, STy.Storable, entryBytes, phantoms, scalarSize]
    cases vt.minSize <;> simp
  all_goals simp [STy.Clean, STy.zero, itemBytes, STy.Storable]

theorem LInv.ensure {lists} {L : LSt} {A : LAbs} (h : LInv lists L A) :
    ∃ st, L.st.ensure = .ok st ∧ LInv lists { L with st := st } A := by
  refine ⟨_, h.rep.ensure, ?_⟩
  exact ⟨h.rep.parsed, by simpa using h.len, h.max, h.canon, h.cfg, h.typed, h.untouched,
    fun fn sh hs => by
      obtain ⟨h1, id, t, v, d, e1, e2, e3, e4, e5⟩ := h.touched fn sh hs
      exact ⟨h1, id, t, v, d, e1, e2, e3, e4, ⟨e5.obj, e5.items, e5.live, e5.clean⟩⟩, h.pend, h.nodup⟩

/-- The accessor. -/
theorem access_inv {lists} {L : LSt} {A : LAbs} (h : LInv lists L A) {fn : Nat} {t : STy}
    (hfn : fn < A.fields.length) (hty : lists fn = some t) (hl : t.isList = true) :
    ∃ id L' v d, L.access fn t = .ok (id, L') ∧
      LInv lists L' (A.setShown fn (some (A.touch fn t))) ∧ L'.lists fn = some id ∧
      ObjOf L' (A.setShown fn (some (A.touch fn t))) fn id (A.touch fn t) t v d := by
  cases hs : A.shown fn with
  | some sh =>
    obtain ⟨h1, id, t', v, d, e1, e2, e3, e4, e5⟩ := h.touched fn sh hs
    have : t' = t := by rw [hty] at e2; exact (Option.some.inj e2).symm
    subst this
    have ht : A.touch fn t' = sh := by simp [LAbs.touch, hs]
    have hA : A.setShown fn (some (A.touch fn t')) = A := by
      rw [ht]; simp only [LAbs.setShown]
      congr 1; funext i
      by_cases hi : i = fn
      · subst hi; simp [hs]
      · simp [hi]
    rw [hA, ht]
    exact ⟨id, L, v, d, by simp [LSt.access, e1], h, e1, e5⟩
  | none =>
    obtain ⟨st, hen, h'⟩ := h.ensure
    have hnone := h.untouched fn hs
    have hblob : blob (encs A.fields 0) fn = (A.fields.getD fn .absent).enc fn := by
      rw [blob_encs, Nat.zero_add]
    have hsz : (A.fields.getD fn .absent).size < 2 ^ 32 := by
      have h1 := sizes_ge A.fields fn
      have h2 := h.rep.small
      rw [total_encs] at h2; omega
    have hcan := h.canon.get fn
    -- old objects keep their places
    have old : ∀ (o : LObj) (dl : List (Nat × Nat)), (∀ p ∈ dl, p ∈ L.dirtyLists ∨ p.1 = fn) →
        (∀ p ∈ L.dirtyLists, p ∈ dl) → ∀ i sh, A.shown i = some sh → i ≠ fn → i < A.fields.length ∧ ∃ id t' v d,
          (if i = fn then some L.heap.length else L.lists i) = some id ∧ lists i = some t' ∧ t'.isList = true ∧
          t'.Clean v ∧ ObjOf ⟨st, L.heap ++ [o], fun i => if i = fn then some L.heap.length else L.lists i, dl⟩
            (A.setShown fn (some (A.touch fn t))) i id sh t' v d := by
      intro o dl hd1 hd2 i sh hi hne
      obtain ⟨h1, id, t', v, d, e1, e2, e3, e4, e5⟩ := h.touched i sh hi
      refine ⟨h1, id, t', v, d, by simp [hne, e1], e2, e3, e4, ?_, e5.items, ?_, e5.clean⟩
      · have := e5.obj
        rw [List.getElem?_append_left]
        · exact this
        · exact (List.getElem?_eq_some_iff.mp this).1
      · rw [e5.live]
        exact ⟨fun hp => hd2 _ hp, fun hp => (hd1 _ hp).resolve_right hne⟩
    have hget : (A.fields.getD fn .absent = .absent ∧ t.getList st fn = .ok none) ∨
        ∃ v, A.fields.getD fn .absent = .scalar t v ∧ t.Clean v ∧ t.getList st fn = .ok (some v) := by
      rcases h.typed fn t hty with e | ⟨v, e⟩
      · exact Or.inl ⟨e, getList_absent h'.rep fn (by rw [hblob, e, Val.enc]) t⟩
      · rw [e] at hcan hblob hsz
        simp only [Val.Canon] at hcan
        refine Or.inr ⟨v, e, hcan.2, getList_of_get t st fn v hl hcan.1 ?_⟩
        refine get_scalar h'.rep t v (by have : st.idx.length = _ := h'.len; show fn < st.idx.length; omega) (by have := h.max; omega) hcan.1
          (by simpa [Val.size] using hsz) hcan.2 (by rw [hblob, Val.enc])
    have hmem : ∀ (dl : List (Nat × Nat)), (∀ p ∈ L.dirtyLists, p.1 ≠ fn) := by
      intro _ p hp e
      have := h.pend p hp
      rw [e, hnone] at this; simp at this
    rcases hget with ⟨e, hg⟩ | ⟨v, e, hcl, hg⟩
    · -- a new list
      have ht : A.touch fn t = ⟨true, .scalar t t.zero⟩ := by
        simp only [LAbs.touch, hs, e, Val.isAbsent, listIn, dite_true]
      have hobj : ObjOf ⟨st, L.heap ++ [LObj.mk fn t t.zero false],
          fun i => if i = fn then some L.heap.length else L.lists i, L.dirtyLists ++ [(fn, L.heap.length)]⟩
          (A.setShown fn (some (A.touch fn t))) fn L.heap.length (A.touch fn t) t t.zero false := by
        refine ⟨by simp, by rw [ht], by rw [ht]; simp, fun _ _ => ?_⟩
        simp only [LAbs.setShown, e, specScalar, isZero_zero, if_true]
      refine ⟨L.heap.length, ⟨st, L.heap ++ [LObj.mk fn t t.zero false],
        fun i => if i = fn then some L.heap.length else L.lists i, L.dirtyLists ++ [(fn, L.heap.length)]⟩,
        t.zero, false, ?_, ?_, by simp, hobj⟩
      · simp [LSt.access, hnone, hen, hg, LSt.register]
      · refine ⟨h'.rep, h'.len, h.max, h.canon, h'.cfg, h.typed, ?_, ?_, ?_, ?_⟩
        · intro i hi
          by_cases hif : i = fn
          · subst hif; simp [LAbs.setShown] at hi
          · simp only [LAbs.setShown, hif, if_false] at hi ⊢; exact h.untouched i hi
        · intro i sh hi
          by_cases hif : i = fn
          · subst hif
            simp only [LAbs.setShown, if_true, Option.some.injEq] at hi
            subst hi
            exact ⟨hfn, L.heap.length, t, t.zero, false, by simp, hty, hl, zero_clean t, hobj⟩
          · simp only [LAbs.setShown, hif, if_false] at hi
            exact old _ _ (by intro p hp; simp only [List.mem_append, List.mem_singleton] at hp
                              rcases hp with hp | hp
                              · exact Or.inl hp
                              · exact Or.inr (by rw [hp])) (fun p hp => by simp [hp]) i sh hi hif
        · intro p hp
          simp only [List.mem_append, List.mem_singleton] at hp
          rcases hp with hp | hp
          · simp only [hmem [] p hp, if_false]; exact h.pend p hp
          · subst hp; simp
        · rw [List.pairwise_append]
          refine ⟨h.nodup, by simp, ?_⟩
          intro p hp q hq
          simp only [List.mem_singleton] at hq
          subst hq; exact hmem [] p hp
    · -- a copy of the stored list
      have ht : A.touch fn t = ⟨false, .scalar t v⟩ := by
        simp only [LAbs.touch, hs, e, Val.isAbsent, listIn, dite_true]
      have hobj : ObjOf ⟨st, L.heap ++ [LObj.mk fn t v false],
          fun i => if i = fn then some L.heap.length else L.lists i, L.dirtyLists⟩
          (A.setShown fn (some (A.touch fn t))) fn L.heap.length (A.touch fn t) t v false := by
        refine ⟨by simp, by rw [ht], ?_, ?_⟩
        · rw [ht]; simp only [Bool.false_eq_true, false_iff]
          intro hp; exact hmem [] _ hp rfl
        · rw [ht]; simp
      refine ⟨L.heap.length, ⟨st, L.heap ++ [LObj.mk fn t v false],
        fun i => if i = fn then some L.heap.length else L.lists i, L.dirtyLists⟩, v, false, ?_, ?_, by simp, hobj⟩
      · simp [LSt.access, hnone, hen, hg]
      · refine ⟨h'.rep, h'.len, h.max, h.canon, h'.cfg, h.typed, ?_, ?_, ?_, h.nodup⟩
        · intro i hi
          by_cases hif : i = fn
          · subst hif; simp [LAbs.setShown] at hi
          · simp only [LAbs.setShown, hif, if_false] at hi ⊢; exact h.untouched i hi
        · intro i sh hi
          by_cases hif : i = fn
          · subst hif
            simp only [LAbs.setShown, if_true, Option.some.injEq] at hi
            subst hi
            exact ⟨hfn, L.heap.length, t, v, false, by simp, hty, hl, hcl, hobj⟩
          · simp only [LAbs.setShown, hif, if_false] at hi
            exact old _ _ (fun p hp => Or.inl hp) (fun p hp => hp) i sh hi hif
        · intro p hp
          simp only [hmem [] p hp, if_false]; exact h.pend p hp

/-- Editing. -/
theorem edit_inv {lists} {L : LSt} {A : LAbs} (h : LInv lists L A) {fn : Nat} {t : STy}
    (hfn : fn < A.fields.length) (hty : lists fn = some t) (hl : t.isList = true)
    (g : t.Val → Option t.Val) (v' : t.Val) (hg : g (listIn t (A.touch fn t).items) = some v')
    (hcl : t.Clean v') :
    ∃ L', L.edit fn t g = .ok L' ∧ LInv lists L' (A.setShown fn (some ⟨(A.touch fn t).live, .scalar t v'⟩)) := by
  obtain ⟨id, L1, v, d, e1, h1, e2, e3⟩ := access_inv h hfn hty hl
  rw [e3.items, listIn_scalar] at hg
  have hobj := e3.obj
  refine ⟨{ L1 with heap := L1.heap.set id ⟨fn, t, v', true⟩ }, ?_, ?_⟩
  · simp only [LSt.edit, e1, Res.ok_bind, hobj, dite_true, hg]
    rfl
  · have hid : id < L1.heap.length := (List.getElem?_eq_some_iff.mp hobj).1
    refine ⟨h1.rep, h1.len, h1.max, h1.canon, h1.cfg, h1.typed, ?_, ?_, h1.pend, h1.nodup⟩
    · intro i hi
      by_cases hif : i = fn
      · subst hif; simp [LAbs.setShown] at hi
      · exact h1.untouched i (by simpa [LAbs.setShown, hif] using hi)
    · intro i sh hi
      by_cases hif : i = fn
      · subst hif
        simp only [LAbs.setShown, if_true, Option.some.injEq] at hi
        subst hi
        exact ⟨hfn, id, t, v', true, e2, hty, hl, hcl, by simp [hid], rfl, e3.live, by simp⟩
      · obtain ⟨k1, id', t', w, d', k2, k3, k4, k5, k6⟩ := h1.touched i sh (by simpa [LAbs.setShown, hif] using hi)
        refine ⟨k1, id', t', w, d', k2, k3, k4, k5, ?_, k6.items, k6.live, k6.clean⟩
        have hne : id ≠ id' := by
          intro e; subst e
          have := k6.obj; rw [hobj] at this
          simp only [Option.some.injEq, LObj.mk.injEq] at this
          exact hif this.1.symm
        simp only [List.getElem?_set_ne hne]; exact k6.obj

theorem flushed_length (A : LAbs) (p : Nat → Bool) : (A.flushed p).length = A.fields.length := by
  simp [LAbs.flushed]

theorem flushed_set (A : LAbs) (p : Nat → Bool) (fn : Nat) (t : STy) (v : t.Val) (hfn : fn < A.fields.length)
    (h : A.shown fn = some ⟨true, .scalar t v⟩) :
    (A.flushed p).set fn (specScalar t v) = A.flushed (fun i => p i || i == fn) := by
  apply List.ext_getElem?
  intro i
  simp only [LAbs.flushed, List.getElem?_set, List.length_mapIdx, List.getElem?_mapIdx]
  by_cases hi : fn = i
  · subst hi
    simp [hfn, h, stored]
  · have : (i == fn) = false := by simpa using fun e => hi e.symm
    simp [hi, this]

theorem flushed_none (A : LAbs) : A.flushed (fun _ => false) = A.fields := by
  apply List.ext_getElem?
  intro i
  simp only [LAbs.flushed, List.getElem?_mapIdx, Bool.false_eq_true, if_false]
  cases A.fields[i]? <;> simp
  cases A.shown i with
  | none => rfl
  | some s => obtain ⟨l, v⟩ := s; cases l <;> rfl

theorem syncAll_inv {A : LAbs} (hm : A.fields.length ≤ 65536)
    (hs : ∀ p, 8 + sizes (A.flushed p) < 2 ^ 32) :
    ∀ (rest : List (Nat × Nat)) (L : LSt) (p : Nat → Bool), Rep 0 L.st (encs (A.flushed p) 0) →
      L.st.idx.length = A.fields.length → (L.st.isSetEnabled = false ∧ L.st.recording = false) →
      (∀ q ∈ rest, q.1 < A.fields.length ∧ ∃ (t : STy) (v : t.Val) (d : Bool), L.heap[q.2]? = some ⟨q.1, t, v, d⟩ ∧
        A.shown q.1 = some ⟨true, .scalar t v⟩ ∧ t.isList = true ∧
        (d = false → A.fields.getD q.1 .absent = specScalar t v)) →
      rest.Pairwise (fun p q => p.1 ≠ q.1) → (∀ q ∈ rest, p q.1 = false) →
      ∃ L', L.syncAll rest = .ok L' ∧ L'.lists = L.lists ∧
        Rep 0 L'.st (encs (A.flushed fun i => p i || rest.any (fun q => i == q.1)) 0) ∧
        L'.st.idx.length = A.fields.length ∧ (L'.st.isSetEnabled = false ∧ L'.st.recording = false) ∧
        ∀ (id : Nat) (o : LObj), L.heap[id]? = some o → ∃ d, L'.heap[id]? = some { o with dirty := d } := by
  intro rest
  induction rest with
  | nil =>
    intro L p hr hl hc _ _ _
    exact ⟨L, rfl, rfl, by simpa using hr, hl, hc, fun id o ho => ⟨o.dirty, ho⟩⟩
  | cons q rest ih =>
    intro L p hr hl hc hobj hnd hp
    obtain ⟨fn, id⟩ := q
    obtain ⟨hfn, t, v, d, ho, hsh, hlist, hclean⟩ := hobj (fn, id) (by simp)
    simp only at hfn ho hsh hclean
    have hid : id < L.heap.length := (List.getElem?_eq_some_iff.mp ho).1
    have hset := flushed_set A p fn t v hfn hsh
    have hstep : ∃ L1, L.syncObj id = .ok L1 ∧ L1.lists = L.lists ∧
        Rep 0 L1.st (encs (A.flushed fun i => p i || i == fn) 0) ∧ L1.st.idx.length = A.fields.length ∧
        (L1.st.isSetEnabled = false ∧ L1.st.recording = false) ∧
        L1.heap = L.heap.set id ⟨fn, t, v, false⟩ := by
      cases d with
      | true =>
        obtain ⟨s', e1, e2, e3⟩ := sync_rep hr (by rw [flushed_length]; exact hl) (by rw [flushed_length]; exact hm)
          hc.2 fn (by rw [flushed_length]; exact hfn) t v hlist (by rw [hset]; exact hs _)
        refine ⟨{ L with st := s', heap := L.heap.set id ⟨fn, t, v, false⟩ }, ?_, rfl, ?_, ?_, ?_, rfl⟩
        · simp [LSt.syncObj, ho, e1]
        · rw [← hset]; exact e2
        · rw [← hl]; exact e3.len
        · exact ⟨e3.enabled.trans hc.1, e3.recording.trans hc.2⟩
      | false =>
        refine ⟨L, by simp [LSt.syncObj, ho], rfl, ?_, hl, hc, ?_⟩
        · rw [← hset]
          have : (A.flushed p)[fn]? = some (specScalar t v) := by
            simp only [LAbs.flushed, List.getElem?_mapIdx, hsh, hp (fn, id) (by simp)]
            have := hclean rfl
            rw [List.getD_eq_getElem?_getD, List.getElem?_eq_getElem hfn] at this
            simp only [Option.getD_some] at this
            rw [List.getElem?_eq_getElem hfn, this]; rfl
          have hid' : (A.flushed p).set fn (specScalar t v) = A.flushed p := by
            apply List.ext_getElem?
            intro i
            rw [List.getElem?_set]
            by_cases hi : fn = i
            · subst hi; rw [if_pos rfl, this]; simp [flushed_length, hfn]
            · rw [if_neg hi]
          rw [hid']; exact hr
        · apply List.ext_getElem?
          intro i
          rw [List.getElem?_set]
          by_cases hi : id = i
          · subst hi; rw [if_pos rfl, if_pos hid]; exact ho
          · rw [if_neg hi]
    obtain ⟨L1, f1, f2, f3, f4, f5, f6⟩ := hstep
    simp only [List.pairwise_cons] at hnd
    obtain ⟨L', g1, g2, g3, g4, g5, g6⟩ := ih L1 (fun i => p i || i == fn) f3 f4 f5 (by
      intro q hq
      obtain ⟨hq1, t', v', d', hqo, hq2⟩ := hobj q (by simp [hq])
      refine ⟨hq1, t', v', d', ?_, hq2⟩
      have hne : id ≠ q.2 := by
        intro e; rw [e, hqo] at ho
        simp only [Option.some.injEq, LObj.mk.injEq] at ho
        exact hnd.1 q hq ho.1.symm
      rw [f6, List.getElem?_set_ne hne]; exact hqo) hnd.2 (by
      intro q hq
      have h1 := hp q (by simp [hq])
      have h2 := hnd.1 q hq
      simp only [h1, Bool.false_or, beq_eq_false_iff_ne]
      exact fun e => h2 e.symm)
    refine ⟨L', by simp [LSt.syncAll, f1, g1], g2.trans f2, ?_, g4, g5, ?_⟩
    · have : (fun i => (p i || i == fn) || rest.any fun q => i == q.1)
          = (fun i => p i || ((fn, id) :: rest).any fun q => i == q.1) := by
        funext i; simp [Bool.or_assoc]
      rw [← this]; exact g3
    · intro j o hj
      by_cases hji : id = j
      · subst hji
        rw [ho] at hj
        have hj := Option.some.inj hj
        subst hj
        obtain ⟨d', h'⟩ := g6 id ⟨fn, t, v, false⟩ (by rw [f6]; simp [hid])
        exact ⟨d', h'⟩
      · exact g6 j o (by rw [f6, List.getElem?_set_ne hji]; exact hj)

theorem canons_iff (vs : List Val) : Canons vs ↔ ∀ i, (vs.getD i .absent).Canon := by
  induction vs with
  | nil => simp [Canons, Val.Canon]
  | cons v vs ih =>
    simp only [Canons, ih]
    constructor
    · intro h i
      cases i with
      | zero => simpa using h.1
      | succ i => simpa using h.2 i
    · intro h
      exact ⟨by simpa using h 0, fun i => by simpa using h (i + 1)⟩

theorem flushed_getD (A : LAbs) (p : Nat → Bool) (i : Nat) (hi : i < A.fields.length) :
    (A.flushed p).getD i .absent = match A.shown i with
      | some ⟨true, v⟩ => if p i then stored v else A.fields.getD i .absent
      | _ => A.fields.getD i .absent := by
  simp only [LAbs.flushed, List.getD_eq_getElem?_getD, List.getElem?_mapIdx, List.getElem?_eq_getElem hi,
    Option.map_some, Option.getD_some]
  cases A.shown i with
  | none => rfl
  | some s => obtain ⟨l, v⟩ := s; cases l <;> rfl

/-- Marshalling. -/
theorem marshal_inv {lists} {L : LSt} {A : LAbs} (h : LInv lists L A)
    (hs : ∀ p, 8 + sizes (A.flushed p) < 2 ^ 32) :
    ∃ msg L', L.marshal = .ok (msg, L') ∧ LInv lists L' (A.step .marshal) ∧
      msg = hdr 0 FTStruct (total (encs A.encoded 0)) ++ (encs A.encoded 0).flatten := by
  have hpend : ∀ q ∈ L.dirtyLists, q.1 < A.fields.length ∧ ∃ (t : STy) (v : t.Val) (d : Bool),
        L.heap[q.2]? = some ⟨q.1, t, v, d⟩ ∧
        A.shown q.1 = some ⟨true, .scalar t v⟩ ∧ t.isList = true ∧
        (d = false → A.fields.getD q.1 .absent = specScalar t v) := by
    intro q hq
    have hq' := h.pend q hq
    cases hsq : A.shown q.1 with
    | none => rw [h.untouched q.1 hsq] at hq'; simp at hq'
    | some sh =>
      obtain ⟨k1, id, t, v, d, k2, k3, k4, k5, k6⟩ := h.touched q.1 sh hsq
      rw [k2] at hq'
      have hid : id = q.2 := Option.some.inj hq'
      subst hid
      have hlive := k6.live.mpr hq
      refine ⟨k1, t, v, d, k6.obj, ?_, k4, k6.clean hlive⟩
      obtain ⟨l, it⟩ := sh
      have := k6.items
      simp only at this hlive
      rw [this, hlive]
  obtain ⟨L1, e1, e2, e3, e4, e5, e6⟩ := syncAll_inv h.max hs L.dirtyLists L (fun _ => false)
    (by rw [flushed_none]; exact h.rep) h.len h.cfg hpend h.nodup (by simp)
  have hflush : (A.flushed fun i => false || L.dirtyLists.any fun q => i == q.1) = A.encoded := by
    apply List.ext_getElem?
    intro i
    simp only [LAbs.encoded, LAbs.flushed, List.getElem?_mapIdx, Bool.false_or, if_true]
    cases hfi : A.fields[i]? with
    | none => rfl
    | some x =>
      simp only [Option.map_some]
      cases hsi : A.shown i with
      | none => rfl
      | some sh =>
        obtain ⟨l, v⟩ := sh
        cases l with
        | false => rfl
        | true =>
          obtain ⟨_, id, _, _, _, _, _, _, _, k6⟩ := h.touched i _ hsi
          have hmem := k6.live.mp rfl
          have : (L.dirtyLists.any fun q => i == q.1) = true := by
            rw [List.any_eq_true]; exact ⟨_, hmem, by simp⟩
          simp [this]
  rw [hflush] at e3
  have hm := marshal_rep e3 e5.1
  refine ⟨_, { L1 with dirtyLists := [] }, ?_, ?_, rfl⟩
  · simp only [LSt.marshal, e1, Res.ok_bind, hm, Res.pure_eq]
  · have hlenE : A.encoded.length = A.fields.length := flushed_length A _
    refine ⟨e3, by rw [e4]; exact hlenE.symm, by show A.encoded.length ≤ _; rw [hlenE]; exact h.max, ?_, e5, ?_, ?_, ?_,
      by simp, by simp⟩
    · -- canonical
      show Canons A.encoded
      rw [canons_iff]
      intro i
      by_cases hi : i < A.fields.length
      · rw [LAbs.encoded, flushed_getD A _ i hi]
        cases hsi : A.shown i with
        | none => exact h.canon.get i
        | some sh =>
          obtain ⟨_, id, t, v, d, _, _, _, k5, k6⟩ := h.touched i _ hsi
          obtain ⟨l, w⟩ := sh
          cases l with
          | false => exact h.canon.get i
          | true =>
            have := k6.items
            simp only at this
            subst this
            exact canon_specScalar t v k5
      · rw [List.getD_eq_getElem?_getD, List.getElem?_eq_none (by rw [hlenE]; omega)]; trivial
    · -- typed
      intro fn t ht
      show A.encoded.getD fn .absent = _ ∨ ∃ v, A.encoded.getD fn .absent = _
      by_cases hi : fn < A.fields.length
      · rw [LAbs.encoded, flushed_getD A _ fn hi]
        cases hsi : A.shown fn with
        | none => exact h.typed fn t ht
        | some sh =>
          obtain ⟨_, id, t', v, d, _, k3, _, k5, k6⟩ := h.touched fn _ hsi
          obtain ⟨l, w⟩ := sh
          cases l with
          | false => exact h.typed fn t ht
          | true =>
            have := k6.items
            simp only at this
            subst this
            have : t = t' := by rw [ht] at k3; exact Option.some.inj k3
            subst this
            simp only [if_true, stored, specScalar]
            cases t.isZero v
            · exact Or.inr ⟨v, rfl⟩
            · exact Or.inl rfl
      · rw [List.getD_eq_getElem?_getD, List.getElem?_eq_none (by rw [hlenE]; omega)]; exact Or.inl rfl
    · intro fn hfn
      have : A.shown fn = none := by
        simp only [LAbs.step, Option.map_eq_none_iff] at hfn; exact hfn
      show L1.lists fn = none
      rw [e2]; exact h.untouched fn this
    · intro fn sh hsh
      simp only [LAbs.step, Option.map_eq_some_iff] at hsh
      obtain ⟨sh0, h0, rfl⟩ := hsh
      obtain ⟨k1, id, t, v, d, k2, k3, k4, k5, k6⟩ := h.touched fn _ h0
      obtain ⟨d', hd'⟩ := e6 id _ k6.obj
      exact ⟨by rw [show (A.step .marshal).fields.length = _ from hlenE]; exact k1, id, t, v, d',
        by show L1.lists fn = _; rw [e2]; exact k2, k3, k4, k5, hd', k6.items, by simp, by simp⟩

/-- Clearing. -/
theorem clear_inv {lists} {L : LSt} {A : LAbs} (h : LInv lists L A) {fn : Nat} (hfn : fn < A.fields.length) :
    ∃ L', L.clear fn = .ok L' ∧ LInv lists L' (A.step (.clear fn)) := by
  have hlt : 8 + sizes A.fields < 2 ^ 32 := by have := h.rep.small; rw [total_encs] at this; exact this
  have hsz : 8 + sizes (A.fields.set fn .absent) < 2 ^ 32 := by
    have h1 := total_set (encs A.fields 0) fn (Val.enc .absent (0 + fn)) (by simpa using hfn)
    rw [encs_set, total_encs, total_encs] at h1
    simp only [Val.enc, List.length_nil] at h1
    omega
  obtain ⟨s', e1, e2, e3, e4⟩ := op_rep (.clear fn) h.rep (by rw [h.len]; exact Nat.le_refl _) h.max h.canon
    (by simp only [Op.Fits]; rw [h.len]; exact hfn) hsz
  simp only [Op.run, clearField] at e1
  refine ⟨_, by simp only [LSt.clear, e1, Res.ok_bind, Res.pure_eq]; rfl, ?_⟩
  have hget : ∀ i, i ≠ fn → (A.fields.set fn .absent).getD i .absent = A.fields.getD i .absent := by
    intro i hi
    simp only [List.getD_eq_getElem?_getD]
    rw [List.getElem?_set_ne (fun e => hi e.symm)]
  refine ⟨e2, by rw [e3.len, h.len]; simp [LAbs.step], by simpa [LAbs.step] using h.max, e4,
    ⟨e3.enabled.trans h.cfg.1, e3.recording.trans h.cfg.2⟩, ?_, ?_, ?_, ?_, ?_⟩
  · intro i t ht
    by_cases hi : i = fn
    · subst hi; left
      simp [LAbs.step, List.getD_eq_getElem?_getD, hfn]
    · simp only [LAbs.step, hget i hi]; exact h.typed i t ht
  · intro i hi
    by_cases hif : i = fn
    · subst hif; simp
    · simp only [LAbs.step, LAbs.setShown, hif, if_false] at hi ⊢; exact h.untouched i hi
  · intro i sh hi
    by_cases hif : i = fn
    · subst hif; simp [LAbs.step, LAbs.setShown] at hi
    · simp only [LAbs.step, LAbs.setShown, hif, if_false] at hi
      obtain ⟨k1, id, t, v, d, k2, k3, k4, k5, k6⟩ := h.touched i _ hi
      refine ⟨by simpa [LAbs.step] using k1, id, t, v, d, by simp only [hif, if_false]; exact k2, k3, k4, k5,
        k6.obj, k6.items, ?_, ?_⟩
      · rw [k6.live]; simp [hif]
      · intro hl hd; simp only [LAbs.step, hget i hif]; exact k6.clean hl hd
  · intro p hp
    simp only [List.mem_filter, ne_eq, decide_eq_true_eq] at hp
    simp only [hp.2, if_false]; exact h.pend p hp.1
  · exact h.nodup.filter _

theorem spec_other (op : Op) (r : List Val) (i : Nat) (h : op.field ≠ some i) :
    (op.spec r).getD i .absent = r.getD i .absent := by
  cases op <;> simp only [Op.field, ne_eq, Option.some.injEq, Op.spec] at h ⊢ <;>
    simp only [List.getD_eq_getElem?_getD] <;> rw [List.getElem?_set_ne h]

/-- Other fields. -/
theorem call_inv {lists} {L : LSt} {A : LAbs} (h : LInv lists L A) (op : Op) (hfit : op.Fits A.fields.length)
    (hf : ∀ fn, op.field = some fn → lists fn = none) (hs : 8 + sizes (op.spec A.fields) < 2 ^ 32) :
    ∃ L', LOp.run (.call op) L = .ok L' ∧ LInv lists L' (A.step (.call op)) := by
  obtain ⟨s', e1, e2, e3, e4⟩ := op_rep op h.rep (by rw [h.len]; exact Nat.le_refl _) h.max h.canon
    (by rw [h.len]; exact hfit) hs
  have hget : ∀ i t, lists i = some t → (op.spec A.fields).getD i .absent = A.fields.getD i .absent := by
    intro i t ht
    apply spec_other
    intro hc
    have := hf i hc
    rw [ht] at this; simp at this
  refine ⟨{ L with st := s' }, by simp [LOp.run, e1], e2, by rw [e3.len, h.len]; simp [LAbs.step, spec_length],
    by simpa [LAbs.step, spec_length] using h.max, e4,
    ⟨e3.enabled.trans h.cfg.1, e3.recording.trans h.cfg.2⟩, ?_, h.untouched, ?_, h.pend, h.nodup⟩
  · intro i t ht
    simp only [LAbs.step, hget i t ht]; exact h.typed i t ht
  · intro i sh hi
    obtain ⟨k1, id, t, v, d, k2, k3, k4, k5, k6⟩ := h.touched i _ hi
    refine ⟨by simpa [LAbs.step, spec_length] using k1, id, t, v, d, k2, k3, k4, k5, k6.obj, k6.items, k6.live, ?_⟩
    intro hl hd; simp only [LAbs.step, hget i t k3]; exact k6.clean hl hd

/-- Every program. -/
theorem lops_inv {lists} (ops : List LOp) : ∀ {L : LSt} {A : LAbs}, LInv lists L A → LFits lists A ops →
    ∃ L', runLOps ops L = .ok L' ∧ LInv lists L' (A.steps ops) := by
  induction ops with
  | nil => intro L A h _; exact ⟨L, rfl, h⟩
  | cons op ops ih =>
    intro L A h hf
    have hstep : ∃ L1, op.run L = .ok L1 ∧ LInv lists L1 (A.step op) := by
      have hf := hf.1
      cases op with
      | call op => exact call_inv h op hf.1 hf.2.1 hf.2.2
      | access fn t =>
        obtain ⟨id, L1, v, d, e1, h1, _⟩ := access_inv h hf.1 hf.2.1 hf.2.2
        exact ⟨L1, by simp [LOp.run, e1], h1⟩
      | edit fn t g =>
        obtain ⟨v, hg, hcl⟩ := hf.2.2.2
        obtain ⟨L1, e1, h1⟩ := edit_inv h hf.1 hf.2.1 hf.2.2.1 g v hg hcl
        refine ⟨L1, e1, ?_⟩
        simp only [LAbs.step, hg]; exact h1
      | clear fn => exact clear_inv h hf
      | marshal =>
        obtain ⟨msg, L1, e1, h1, _⟩ := marshal_inv h hf
        exact ⟨L1, by simp [LOp.run, e1], h1⟩
    obtain ⟨L1, e1, h1⟩ := hstep
    obtain ⟨L', e2, h2⟩ := ih h1 hf.2
    exact ⟨L', by simp [runLOps, e1, e2], h2⟩

end Claw
