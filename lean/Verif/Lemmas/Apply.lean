import Verif.Lemmas.Diff

/-!
# The effect of the operations of a patch on a struct

`PInv tys L r c`: the segment of `L` holds the record `r` and the list objects show `c`. Lists of numbers are
written at once, so an object of such a list must have no unwritten edit.
-/

namespace Claw

set_option linter.unusedSimpArgs false

/-- What field `i` shows: the object if there is one, otherwise the segment. -/
def obj (r : List Val) (c : Nat → Option Val) (i : Nat) : Val := (c i).getD (r.getD i .absent)

def upd (c : Nat → Option Val) (fn : Nat) (x : Option Val) : Nat → Option Val := fun i => if i = fn then x else c i

@[simp] theorem upd_self (c : Nat → Option Val) (fn : Nat) (x : Option Val) : upd c fn x fn = x := by simp [upd]
theorem upd_ne (c : Nat → Option Val) {fn i : Nat} (x : Option Val) (h : i ≠ fn) : upd c fn x i = c i := by
  simp [upd, h]

structure PInv (tys : List Ty) (L : LSt) (r : List Val) (c : Nat → Option Val) : Prop where
  rep : Rep 0 L.st (encs r 0)
  len : L.st.idx.length = r.length
  sch : r.length = tys.length
  max : r.length ≤ 65536
  canon : Canons r
  typed : ∀ i ty, tys[i]? = some ty → (r.getD i .absent).HasTy ty
  cfg : L.st.isSetEnabled = false ∧ L.st.recording = false
  objs : ∀ fn, (c fn = none ∧ L.lists fn = none) ∨ ∃ id t v d, L.lists fn = some id ∧
    L.heap[id]? = some ⟨fn, t, v, d⟩ ∧ c fn = some (.scalar t v) ∧ tys[fn]? = some (.scalar t) ∧ t.isList = true
  pend : ∀ p ∈ L.dirtyLists, ∃ t v d, L.heap[p.2]? = some ⟨p.1, t, v, d⟩ ∧ tys[p.1]? = some (.scalar t) ∧
    t.isList = true ∧ (∀ k, t = .lnum k → d = false)
  ids : L.dirtyLists.Pairwise (fun p q => p.2 ≠ q.2)
  nums : ∀ fn k v, c fn = some (.scalar (.lnum k) v) → r.getD fn .absent = specScalar (.lnum k) v

namespace PInv
variable {tys : List Ty} {L : LSt} {r : List Val} {c : Nat → Option Val}

theorem small (h : PInv tys L r c) : 8 + sizes r < 2 ^ 32 := by
  have := h.rep.small; rw [total_encs] at this; exact this

/-- The cache entry of a field. -/
theorem cached (h : PInv tys L r c) {fn : Nat} {t : STy} (hty : tys[fn]? = some (.scalar t)) :
    (c fn = none ∧ L.lists fn = none) ∨ ∃ id v d, L.lists fn = some id ∧ L.heap[id]? = some ⟨fn, t, v, d⟩ ∧
      c fn = some (.scalar t v) := by
  rcases h.objs fn with e | ⟨id, t', v, d, e1, e2, e3, e4, e5⟩
  · exact .inl e
  · rw [hty] at e4
    have := Option.some.inj e4
    simp only [Ty.scalar.injEq] at this
    subst this
    exact .inr ⟨id, v, d, e1, e2, e3⟩

theorem fld (h : PInv tys L r c) (i : Nat) (ty : Ty) (hi : tys[i]? = some ty) : Fld L i ty (obj r c i) := by
  have hlt : i < r.length := by rw [h.sch]; exact (List.getElem?_eq_some_iff.1 hi).1
  rcases h.objs i with ⟨e1, e2⟩ | ⟨id, t, v, d, e1, e2, e3, e4, e5⟩
  · rw [obj, e1, Option.getD_none]
    have hr := h.rep
    rw [← padTo_self (m := 0) (fs := encs r 0) (by omega)] at hr
    exact fld_segment hr (by rw [h.len]; exact hlt) h.canon h.max ty (h.typed i ty hi) e2
  · rw [hi] at e4
    have := Option.some.inj e4
    subst this
    rw [obj, e3, Option.getD_some]
    simp only [Fld, e5, if_true]
    refine .inr ⟨v, rfl, ?_⟩
    simp [LSt.look, LSt.getL, e1, LSt.items, e2]

/-- The same struct with the index parsed. -/
theorem ensure (h : PInv tys L r c) : ∃ st, L.st.ensure = .ok st ∧ PInv tys { L with st := st } r c :=
  ⟨_, h.rep.ensure, ⟨h.rep.parsed, by simpa using h.len, h.sch, h.max, h.canon, h.typed, h.cfg, h.objs, h.pend,
    h.ids, h.nums⟩⟩

/-- Fetching the object of a list. -/
theorem getL (h : PInv tys L r c) {fn : Nat} {t : STy} (hty : tys[fn]? = some (.scalar t)) (hl : t.isList = true) :
    ∃ o L1 c1, L.getL fn t = .ok (o, L1) ∧ PInv tys L1 r c1 ∧ L1.dirtyLists = L.dirtyLists ∧
      (∀ p ∈ L.dirtyLists, L1.heap[p.2]? = L.heap[p.2]?) ∧ (∀ j, obj r c1 j = obj r c j) ∧
      ((o = none ∧ obj r c fn = .absent) ∨
        ∃ id v, o = some id ∧ L1.lists fn = some id ∧ L1.items id t = .ok v ∧ c1 fn = some (.scalar t v)) := by
  rcases h.cached hty with ⟨e1, e2⟩ | ⟨id, v, d, e1, e2, e3⟩
  · obtain ⟨st, hen, h'⟩ := h.ensure
    have hlt : fn < r.length := by rw [h.sch]; exact (List.getElem?_eq_some_iff.1 hty).1
    have hf := h'.fld fn (.scalar t) hty
    simp only [Fld, hl, if_true] at hf
    have hlook : ∀ o : Option t.Val, ({ L with st := st } : LSt).look fn t = .ok o → t.getList st fn = .ok o := by
      intro o ho
      have h2 : st.ensure = .ok st := by
        have := h.rep.ensure
        rw [hen] at this
        have := Res.ok.inj this
        rw [this]; simp [St.ensure]
      simp only [LSt.look, LSt.getL, e2, h2, Res.ok_bind] at ho
      cases hg : t.getList st fn with
      | ok o' =>
        cases o' with
        | none => simp [hg] at ho; rw [← ho]
        | some w => simp [hg, LSt.items] at ho; rw [← ho]
      | panic => simp [hg] at ho
      | hang => simp [hg] at ho
    rcases hf with ⟨f1, f2⟩ | ⟨v, f1, f2⟩
    · refine ⟨none, { L with st := st }, c, ?_, h', rfl, fun _ _ => rfl, fun _ => rfl, .inl ⟨rfl, f1⟩⟩
      simp [LSt.getL, e2, hen, hlook _ f2]
    · have hr : r.getD fn .absent = .scalar t v := by simpa [obj, e1] using f1
      refine ⟨some L.heap.length, { L with
          st := st
          heap := L.heap ++ [LObj.mk fn t v false]
          lists := fun i => if i = fn then some L.heap.length else L.lists i },
        upd c fn (some (.scalar t v)), ?_, ?_, rfl, ?_, ?_, .inr ⟨L.heap.length, v, rfl, by simp, by simp [LSt.items], by simp⟩⟩
      · simp [LSt.getL, e2, hen, hlook _ f2]
      · have old : ∀ (id : Nat) (x : LObj), L.heap[id]? = some x → (L.heap ++ [LObj.mk fn t v false])[id]? = some x := by
          intro id x hx
          rw [List.getElem?_append_left (List.getElem?_eq_some_iff.1 hx).1]; exact hx
        refine ⟨h'.rep, h'.len, h.sch, h.max, h.canon, h.typed, h'.cfg, ?_, ?_, h.ids, ?_⟩
        · intro j
          by_cases hj : j = fn
          · subst hj
            exact .inr ⟨L.heap.length, t, v, false, by simp, by simp, by simp, hty, hl⟩
          · rcases h.objs j with ⟨a1, a2⟩ | ⟨id, t', v', d', a1, a2, a3, a4, a5⟩
            · exact .inl ⟨by rw [upd_ne _ _ hj, a1], by simp [hj, a2]⟩
            · exact .inr ⟨id, t', v', d', by simp [hj, a1], old _ _ a2, by rw [upd_ne _ _ hj, a3], a4, a5⟩
        · intro p hp
          obtain ⟨t', v', d', a1, a2⟩ := h.pend p hp
          exact ⟨t', v', d', old _ _ a1, a2⟩
        · intro j k v' hj
          by_cases he : j = fn
          · subst he
            rw [upd_self] at hj
            have := Option.some.inj hj
            have hc := h.canon.get j
            rw [hr, this] at hc
            simp only [Val.Canon] at hc
            rw [hr, this, specScalar, hc.1]; rfl
          · rw [upd_ne _ _ he] at hj
            exact h.nums j k v' hj
      · intro p hp
        obtain ⟨t', v', d', a1, a2⟩ := h.pend p hp
        rw [List.getElem?_append_left (List.getElem?_eq_some_iff.1 a1).1]
      · intro j
        by_cases hj : j = fn
        · subst hj; rw [f1]; simp [obj]
        · simp [obj, upd_ne _ _ hj]
  · refine ⟨some id, L, c, by simp [LSt.getL, e1], h, rfl, fun _ _ => rfl, fun _ => rfl, .inr ⟨id, v, rfl, e1, ?_, e3⟩⟩
    simp [LSt.items, e2]

/-- Editing an object in place. -/
theorem setHeap (h : PInv tys L r c) {fn id : Nat} {t : STy} {v : t.Val} (hty : tys[fn]? = some (.scalar t))
    (hs : t.isSlice = true) (hid : L.lists fn = some id) (hc : c fn = some (.scalar t v)) (w : t.Val) :
    PInv tys { L with heap := L.heap.set id (LObj.mk fn t w true) } r (upd c fn (some (.scalar t w))) := by
  have hl : t.isList = true := by cases t <;> first | rfl | simp [STy.isSlice] at hs
  have hobj : ∃ d, L.heap[id]? = some ⟨fn, t, v, d⟩ := by
    rcases h.cached hty with ⟨e1, e2⟩ | ⟨id', v', d, e1, e2, e3⟩
    · rw [hc] at e1; simp at e1
    · rw [hid] at e1
      have := Option.some.inj e1
      subst this
      rw [hc] at e3
      simp only [Option.some.injEq, Val.scalar.injEq, heq_eq_eq, true_and] at e3
      subst e3
      exact ⟨d, e2⟩
  obtain ⟨d, hobj⟩ := hobj
  have hlt := (List.getElem?_eq_some_iff.1 hobj).1
  refine ⟨h.rep, h.len, h.sch, h.max, h.canon, h.typed, h.cfg, ?_, ?_, h.ids, ?_⟩
  · intro j
    by_cases hj : j = fn
    · subst hj
      exact .inr ⟨id, t, w, true, hid, by simp [List.getElem?_set, hlt], by simp, hty, hl⟩
    · rcases h.objs j with ⟨a1, a2⟩ | ⟨id', t', v', d', a1, a2, a3, a4, a5⟩
      · exact .inl ⟨by rw [upd_ne _ _ hj, a1], a2⟩
      · have hne : id ≠ id' := by
          intro e; subst e; rw [hobj] at a2; have := Option.some.inj a2
          simp only [LObj.mk.injEq] at this; exact hj this.1.symm
        exact .inr ⟨id', t', v', d', a1, by simp [List.getElem?_set, hne, a2], by rw [upd_ne _ _ hj, a3], a4, a5⟩
  · intro p hp
    obtain ⟨t', v', d', a1, a2⟩ := h.pend p hp
    by_cases hne : id = p.2
    · rw [← hne, hobj] at a1
      have := Option.some.inj a1
      simp only [LObj.mk.injEq] at this
      refine ⟨t, w, true, ?_, ?_, hl, fun k e => by rw [e] at hs; simp [STy.isSlice] at hs⟩
      · simp [List.getElem?_set, hne, ← this.1]; omega
      · rw [← this.1]; exact hty
    · exact ⟨t', v', d', by simp [List.getElem?_set, hne, a1], a2⟩
  · intro j k v' hj
    by_cases he : j = fn
    · subst he
      rw [upd_self] at hj
      simp only [Option.some.injEq, Val.scalar.injEq] at hj
      rw [hj.1] at hs; simp [STy.isSlice] at hs
    · rw [upd_ne _ _ he] at hj
      exact h.nums j k v' hj

/-- A new object, cached and registered. -/
theorem renew (h : PInv tys L r c) {fn : Nat} {t : STy} (hty : tys[fn]? = some (.scalar t))
    (hs : t.isSlice = true) (w : t.Val) : PInv tys (L.renew fn t w) r (upd c fn (some (.scalar t w))) := by
  have hl : t.isList = true := by cases t <;> first | rfl | simp [STy.isSlice] at hs
  have old : ∀ (id : Nat) (x : LObj), L.heap[id]? = some x → (L.heap ++ [LObj.mk fn t w true])[id]? = some x := by
    intro id x hx
    rw [List.getElem?_append_left (List.getElem?_eq_some_iff.1 hx).1]; exact hx
  refine ⟨h.rep, h.len, h.sch, h.max, h.canon, h.typed, h.cfg, ?_, ?_, ?_, ?_⟩
  · intro j
    by_cases hj : j = fn
    · subst hj
      exact .inr ⟨L.heap.length, t, w, true, by simp [LSt.renew, LSt.register], by simp [LSt.renew, LSt.register], by simp, hty, hl⟩
    · rcases h.objs j with ⟨a1, a2⟩ | ⟨id, t', v', d', a1, a2, a3, a4, a5⟩
      · exact .inl ⟨by rw [upd_ne _ _ hj, a1], by simp [LSt.renew, LSt.register, hj, a2]⟩
      · exact .inr ⟨id, t', v', d', by simp [LSt.renew, LSt.register, hj, a1], old _ _ a2, by rw [upd_ne _ _ hj, a3], a4, a5⟩
  · intro p hp
    simp only [LSt.renew, LSt.register, List.mem_append, List.mem_singleton] at hp
    rcases hp with hp | rfl
    · obtain ⟨t', v', d', a1, a2⟩ := h.pend p hp
      exact ⟨t', v', d', old _ _ a1, a2⟩
    · exact ⟨t, w, true, by simp [LSt.renew, LSt.register], hty, hl, fun k e => by rw [e] at hs; simp [STy.isSlice] at hs⟩
  · simp only [LSt.renew, LSt.register]
    rw [List.pairwise_append]
    refine ⟨h.ids, by simp, ?_⟩
    intro p hp q hq
    simp at hq
    subst hq
    obtain ⟨t', v', d', a1, a2⟩ := h.pend p hp
    have := (List.getElem?_eq_some_iff.1 a1).1
    simp only
    omega
  · intro j k v' hj
    by_cases he : j = fn
    · subst he
      rw [upd_self] at hj
      simp only [Option.some.injEq, Val.scalar.injEq] at hj
      rw [hj.1] at hs; simp [STy.isSlice] at hs
    · rw [upd_ne _ _ he] at hj
      exact h.nums j k v' hj

/-- Another struct state with the same objects. -/
theorem setSt (h : PInv tys L r c) {st : St} {r' : List Val} (hr : Rep 0 st (encs r' 0)) (hc : SameCfg L.st st)
    (hl : r'.length = r.length) (hcan : Canons r') (hty : ∀ i ty, tys[i]? = some ty → (r'.getD i .absent).HasTy ty)
    (hn : ∀ fn k v, c fn = some (.scalar (.lnum k) v) → r'.getD fn .absent = r.getD fn .absent) :
    PInv tys { L with st := st } r' c :=
  ⟨hr, by rw [hl, ← h.len]; exact hc.len, by rw [hl]; exact h.sch, by rw [hl]; exact h.max, hcan, hty,
    ⟨by rw [hc.enabled]; exact h.cfg.1, by rw [hc.recording]; exact h.cfg.2⟩, h.objs, h.pend, h.ids,
    fun fn k v hv => by rw [hn fn k v hv]; exact h.nums fn k v hv⟩

/-- Without the object of one field. -/
theorem uncached (h : PInv tys L r c) (fn : Nat) : PInv tys (L.uncache fn) r (upd c fn none) :=
  ⟨h.rep, h.len, h.sch, h.max, h.canon, h.typed, h.cfg,
    fun j => by
      by_cases hj : j = fn
      · subst hj; exact .inl ⟨by simp, by simp [LSt.uncache]⟩
      · rcases h.objs j with ⟨a1, a2⟩ | ⟨id, t', v', d', a1, a2, a3, a4, a5⟩
        · exact .inl ⟨by rw [upd_ne _ _ hj, a1], by simp [LSt.uncache, hj, a2]⟩
        · exact .inr ⟨id, t', v', d', by simp [LSt.uncache, hj, a1], a2, by rw [upd_ne _ _ hj, a3], a4, a5⟩,
    h.pend, h.ids,
    fun j k v hv => by
      by_cases hj : j = fn
      · subst hj; simp at hv
      · rw [upd_ne _ _ hj] at hv; exact h.nums j k v hv⟩

/-- With fewer registered objects. -/
theorem unregister (h : PInv tys L r c) (fn : Nat) :
    PInv tys { L with dirtyLists := L.dirtyLists.filter fun p => p.1 ≠ fn } r c :=
  ⟨h.rep, h.len, h.sch, h.max, h.canon, h.typed, h.cfg, h.objs,
    fun p hp => h.pend p (List.mem_filter.1 hp).1, h.ids.filter _, h.nums⟩

theorem getD_set_self {r : List Val} {fn : Nat} {v : Val} (h : fn < r.length) : (r.set fn v).getD fn .absent = v := by
  simp [List.getD_eq_getElem?_getD, h]

theorem getD_set_ne {r : List Val} {fn j : Nat} {v : Val} (h : j ≠ fn) :
    (r.set fn v).getD j .absent = r.getD j .absent := by
  simp [List.getD_eq_getElem?_getD, List.getElem?_set, Ne.symm h]

theorem typed_set (h : PInv tys L r c) {fn : Nat} {ty : Ty} (hty : tys[fn]? = some ty) {v : Val} (hv : v.HasTy ty) :
    ∀ i ty, tys[i]? = some ty → ((r.set fn v).getD i .absent).HasTy ty := by
  have hlt : fn < r.length := by rw [h.sch]; exact (List.getElem?_eq_some_iff.1 hty).1
  intro i ty' hi
  by_cases he : i = fn
  · subst he
    rw [getD_set_self hlt]
    rw [hty] at hi
    rw [← Option.some.inj hi]; exact hv
  · rw [getD_set_ne he]; exact h.typed i ty' hi

theorem sizes_set_absent (r : List Val) (fn : Nat) : sizes (r.set fn .absent) ≤ sizes r := by
  induction r generalizing fn with
  | nil => simp
  | cons v r ih =>
    cases fn with
    | zero => simp [sizes, Val.size]
    | succ fn => have := ih fn; simp only [List.set_cons_succ, sizes]; omega

/-- Removing a field from the segment. -/
theorem remove (h : PInv tys L r c) {fn : Nat} {ty : Ty} (hty : tys[fn]? = some ty) : ∃ st, L.st.removeField fn = .ok st ∧
    PInv tys { L.uncache fn with st := st } (r.set fn .absent) (upd c fn none) := by
  have hlt : fn < r.length := by rw [h.sch]; exact (List.getElem?_eq_some_iff.1 hty).1
  obtain ⟨sp, e1, e2⟩ := removeField_rep h.rep fn (by rw [h.len]; exact hlt)
  have hset : (encs r 0).set fn [] = encs (r.set fn .absent) 0 := by
    have := encs_set r 0 fn .absent
    simpa [Val.enc] using this
  rw [hset] at e1 e2
  refine ⟨_, e1, ?_⟩
  refine (h.uncached fn).setSt (r' := r.set fn .absent) (by simpa using e2) ⟨by simp [LSt.uncache], rfl, rfl⟩ (by simp)
    (h.canon.set fn _ trivial) (h.typed_set hty trivial) ?_
  intro j k v hv
  by_cases hj : j = fn
  · subst hj; simp at hv
  · exact getD_set_ne hj

theorem clear (h : PInv tys L r c) {fn : Nat} {ty : Ty} (hty : tys[fn]? = some ty) : ∃ L', L.clear fn = .ok L' ∧
    PInv tys L' (r.set fn .absent) (upd c fn none) ∧ L'.heap = L.heap ∧
    L'.dirtyLists = L.dirtyLists.filter fun p => p.1 ≠ fn := by
  obtain ⟨st, e1, e2⟩ := h.remove hty
  refine ⟨_, by simp only [LSt.clear, e1, Res.ok_bind]; rfl, e2.unregister fn, rfl, rfl⟩

/-- A list of numbers written at once. -/
theorem setRaw (h : PInv tys L r c) {fn : Nat} {k : NTy} (hty : tys[fn]? = some (.scalar (.lnum k))) (v : List k.Val)
    (hs : 8 + sizes (r.set fn (specScalar (.lnum k) v)) < 2 ^ 32) :
    ∃ L', L.setRaw k fn (numData k v) = .ok L' ∧
      PInv tys L' (r.set fn (specScalar (.lnum k) v)) (upd c fn none) ∧ L'.heap = L.heap ∧
      L'.dirtyLists = L.dirtyLists := by
  have hlt : fn < r.length := by rw [h.sch]; exact (List.getElem?_eq_some_iff.1 hty).1
  cases v with
  | nil =>
    obtain ⟨st, e1, e2⟩ := h.remove hty
    refine ⟨{ L.uncache fn with st := st }, ?_, by simpa [specScalar, STy.isZero] using e2, rfl, rfl⟩
    simp only [LSt.setRaw, numData, List.flatMap_nil, List.length_nil, if_true, e1, Res.ok_bind]
    rfl
  | cons x v =>
    generalize hv : x :: v = w at *
    have hz : STy.isZero (.lnum k) w = false := by rw [← hv]; simp [STy.isZero]
    have hsp : specScalar (.lnum k) w = .scalar (.lnum k) w := by simp [specScalar, hz]
    have hne : ¬ (numData k w).length = 0 := by
      rw [numData_length, ← hv]
      have := k.size_pos
      have := Nat.mul_pos (show 0 < (x :: v).length by simp) this
      omega
    have hsz := sizes_ge (r.set fn (specScalar (.lnum k) w)) fn
    rw [getD_set_self hlt, hsp] at hsz
    simp only [Val.size, scalarSize] at hsz
    have hblob : encodeHeaderAt (zeros (HeaderSize + (numData k w).length)) fn k.ft (HeaderSize + (numData k w).length)
        = some (hdr fn k.ft (8 + (numData k w).length) ++ (zeros (HeaderSize + (numData k w).length)).drop 8) := by
      rw [encodeHeaderAt_eq (by simp [HeaderSize]) fn k.ft (by rw [numData_length]; simp only [HeaderSize]; rw [hsp] at hs; omega)]
    have hcopy : goCopy (hdr fn k.ft (8 + (numData k w).length) ++ (zeros (HeaderSize + (numData k w).length)).drop 8)
        HeaderSize (numData k w) = hdr fn k.ft (8 + (numData k w).length) ++ numData k w := by
      rw [goCopy_fit' (hdr fn k.ft (8 + (numData k w).length)) ((zeros (HeaderSize + (numData k w).length)).drop 8) []
        (numData k w) (by simp) (by simp [HeaderSize]) (by simp [zeros, HeaderSize])]
      simp
    obtain ⟨p1, p2, p3⟩ := store_pre (s := L.st) (vs := r) (by rw [h.len]; omega) h.max fn (by rw [h.len]; exact hlt)
      (specScalar (.lnum k) w) (specScalar_stored trivial) hs (scalarBlob fn (.lnum k) w)
      (by intro _; rw [hsp, Val.enc])
    have hab : (specScalar (.lnum k) w).isAbsent = false := by rw [hsp]; rfl
    rw [hab] at p1 p2 p3
    obtain ⟨sp, e1, e2⟩ := insertField_rep h.rep fn _ (by rw [h.len]; exact hlt) (p1 rfl) (p2 rfl)
    simp only [Bool.false_eq_true, if_false] at p3
    generalize hst : St.mk _ _ _ _ _ _ _ = st at e1 e2
    rw [p3] at e2
    have hsb : scalarBlob fn (.lnum k) w = hdr fn k.ft (8 + (numData k w).length) ++ numData k w := by
      simp [scalarBlob, STy.ft, STy.f40, STy.tail]
    refine ⟨{ L.uncache fn with st := st }, ?_, ?_, rfl, rfl⟩
    · simp only [LSt.setRaw, if_neg hne, hblob, Res.ofOption_some, Res.ok_bind, hcopy]
      rw [← hsb, e1]
      rfl
    · refine (PInv.uncached h fn).setSt (r' := r.set fn (specScalar (.lnum k) w)) e2
        (by rw [← hst]; exact ⟨by simp [LSt.uncache], rfl, rfl⟩) (by simp)
        (h.canon.set fn _ (canon_specScalar _ _ trivial)) (h.typed_set hty (by rw [hsp]; rfl)) ?_
      intro j k' v' hv'
      by_cases hj : j = fn
      · subst hj; simp at hv'
      · exact getD_set_ne hj

/-- Syncing the objects of a list of numbers: there is nothing to write. -/
theorem syncField (h : PInv tys L r c) {fn : Nat} {k : NTy} (hty : tys[fn]? = some (.scalar (.lnum k))) :
    L.syncField fn = .ok { L with dirtyLists := L.dirtyLists.filter fun p => p.1 ≠ fn } := by
  have hall : ∀ l : List (Nat × Nat), (∀ p ∈ l, p ∈ L.dirtyLists ∧ p.1 = fn) → L.syncAll l = .ok L := by
    intro l
    induction l with
    | nil => intro _; rfl
    | cons p l ih =>
      intro hp
      obtain ⟨p1, p2⟩ := hp p (by simp)
      obtain ⟨t, v, d, a1, a2, a3, a4⟩ := h.pend p p1
      rw [p2, hty] at a2
      have := Option.some.inj a2
      simp only [Ty.scalar.injEq] at this
      subst this
      have hd : d = false := a4 k rfl
      rw [LSt.syncAll]
      simp [LSt.syncObj, a1, hd, ih (fun q hq => hp q (by simp [hq]))]
  rw [LSt.syncField, hall _ (by intro p hp; simpa using hp)]
  rfl

/-- The items of a list of numbers in the segment. -/
theorem rawItems (h : PInv tys L r c) {fn : Nat} {k : NTy} (hty : tys[fn]? = some (.scalar (.lnum k))) :
    ∃ v : List k.Val, r.getD fn .absent = specScalar (.lnum k) v ∧ listIn (.lnum k) (obj r c fn) = v ∧
      rawItems k L.st fn = .ok (if v = [] then none else some (numData k v)) := by
  have hlt : fn < r.length := by rw [h.sch]; exact (List.getElem?_eq_some_iff.1 hty).1
  have hv : ∃ v : List k.Val, r.getD fn .absent = specScalar (.lnum k) v := by
    have ht := h.typed fn _ hty
    have hc := h.canon.get fn
    cases hr : r.getD fn .absent with
    | absent => exact ⟨[], by simp [specScalar, STy.isZero]⟩
    | scalar t v =>
      rw [hr] at ht hc
      simp only [Val.HasTy] at ht
      subst ht
      simp only [Val.Canon] at hc
      exact ⟨v, by simp [specScalar, hc.1]⟩
    | struct _ => rw [hr] at ht; simp [Val.HasTy] at ht
    | structs _ => rw [hr] at ht; simp [Val.HasTy] at ht
  obtain ⟨v, hv⟩ := hv
  refine ⟨v, hv, ?_, ?_⟩
  · rcases h.cached hty with ⟨e1, e2⟩ | ⟨id, w, d, e1, e2, e3⟩
    · rw [obj, e1, Option.getD_none, hv, specScalar]
      cases v <;> simp [STy.isZero, listIn, STy.zero]
    · rw [obj, e3, Option.getD_some]
      have hw := h.nums fn k w e3
      rw [hv] at hw
      have : v = w := by
        cases v <;> cases w <;> simp [specScalar, STy.isZero] at hw ⊢
        exact hw
      subst this
      simp [listIn]
  · have hblob : blob (encs r 0) fn = (specScalar (.lnum k) v).enc fn := by rw [blob_encs, Nat.zero_add, hv]
    cases v with
    | nil =>
      simp only [Claw.rawItems, getListNums_absent h.rep fn (.inr (by rw [hblob]; simp [specScalar, STy.isZero, Val.enc])), Res.ok_bind]
      rfl
    | cons x v =>
      generalize he : x :: v = w at *
      have hz : STy.isZero (.lnum k) w = false := by rw [← he]; simp [STy.isZero]
      have hsp : specScalar (.lnum k) w = .scalar (.lnum k) w := by simp [specScalar, hz]
      have hsz := sizes_ge r fn
      rw [hv, hsp] at hsz
      simp only [Val.size, scalarSize] at hsz
      have := h.small
      have hg := getListNums_hdr h.rep (i := fn) k w (by rw [h.len]; exact hlt) (by have := h.max; omega)
        (by rw [hblob, hsp, Val.enc]; simp [scalarBlob, STy.ft, STy.f40, STy.tail]) (by omega)
      rw [if_neg (by rw [← he]; simp)]
      simp only [Claw.rawItems, hg, Res.ok_bind]
      rfl

end PInv

end Claw
