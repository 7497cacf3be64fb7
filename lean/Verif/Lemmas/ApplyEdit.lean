import Verif.Lemmas.Apply

/-!
# The list edits of a patch
-/

namespace Claw

set_option linter.unusedSimpArgs false

theorem insertIdx_eq_split {α : Type} (v : List α) (i : Nat) (x : α) (h : i ≤ v.length) :
    v.insertIdx i x = v.take i ++ x :: v.drop i := by
  induction v generalizing i with
  | nil =>
    have : i = 0 := by simpa using h
    subst this; simp
  | cons y v ih =>
    cases i with
    | zero => simp
    | succ i => simp [List.insertIdx_succ_cons, ih i (by simpa using h)]

theorem NTy.bits_ofBits (k : NTy) (n : Nat) (h : n < 256 ^ k.size) : k.bits (k.ofBits n) = n := by
  cases k <;> simp only [NTy.size] at h <;> simp [NTy.bits, NTy.ofBits] <;> omega

/-- The bytes of an item are an item. -/
theorem item_bytes (k : NTy) (d : Bytes) (h : k.size ≤ d.length) :
    numData k [k.ofBits (getLE (d.take k.size))] = d.take k.size := by
  have hl : (d.take k.size).length = k.size := by simp [h]
  have hlt := getLE_lt (d.take k.size)
  rw [hl] at hlt
  simp only [numData, List.flatMap_cons, List.flatMap_nil, List.append_nil, k.bits_ofBits _ hlt]
  have := putLE_getLE (d.take k.size)
  rw [hl] at this
  exact this

theorem numData_take (k : NTy) (v : List k.Val) (i : Nat) : (numData k v).take (i * k.size) = numData k (v.take i) := by
  by_cases h : i ≤ v.length
  · conv => lhs; rw [← List.take_append_drop i v, numData_append]
    rw [List.take_left' (by simp [Nat.min_eq_left h])]
  · rw [List.take_of_length_le (by omega : v.length ≤ i), List.take_of_length_le]
    rw [numData_length]; exact Nat.mul_le_mul_right _ (by omega)

theorem numData_drop (k : NTy) (v : List k.Val) (i : Nat) : (numData k v).drop (i * k.size) = numData k (v.drop i) := by
  by_cases h : i ≤ v.length
  · conv => lhs; rw [← List.take_append_drop i v, numData_append]
    rw [List.drop_left' (by simp [Nat.min_eq_left h])]
  · rw [List.drop_of_length_le (by omega : v.length ≤ i), List.drop_of_length_le]
    · rfl
    · rw [numData_length]; exact Nat.mul_le_mul_right _ (by omega)

theorem numData_nil_iff (k : NTy) (v : List k.Val) : (numData k v).length / k.size = v.length := by
  rw [numData_length, Nat.mul_div_cancel _ k.size_pos]

theorem numData_ins (k : NTy) (v : List k.Val) (i : Nat) (d : Bytes) (hi : i ≤ v.length) (hd : k.size ≤ d.length) :
    (numData k v).take (i * k.size) ++ d.take k.size ++ (numData k v).drop (i * k.size)
      = numData k (v.insertIdx i (k.ofBits (getLE (d.take k.size)))) := by
  rw [numData_take, numData_drop, insertIdx_eq_split v i _ hi]
  conv => lhs; rw [← item_bytes k d hd, ← numData_append, ← numData_append]
  simp

theorem numData_rem (k : NTy) (v : List k.Val) (i : Nat) :
    (numData k v).take (i * k.size) ++ (numData k v).drop (i * k.size + k.size) = numData k (v.eraseIdx i) := by
  have : i * k.size + k.size = (i + 1) * k.size := by rw [Nat.succ_mul]
  rw [this, numData_take, numData_drop, ← numData_append, List.eraseIdx_eq_take_drop_succ]

theorem numData_put (k : NTy) (v : List k.Val) (i : Nat) (d : Bytes) (hi : i < v.length) (hd : k.size ≤ d.length) :
    goCopy (numData k v) (i * k.size) (d.take k.size) = numData k (v.set i (k.ofBits (getLE (d.take k.size)))) := by
  have hs := numData_split k v i hi
  have hx : numData k (v.set i (k.ofBits (getLE (d.take k.size))))
      = numData k (v.take i) ++ d.take k.size ++ numData k (v.drop (i + 1)) := by
    rw [List.set_eq_take_append_cons_drop, if_pos hi]
    have : v.take i ++ k.ofBits (getLE (d.take k.size)) :: v.drop (i + 1)
        = v.take i ++ [k.ofBits (getLE (d.take k.size))] ++ v.drop (i + 1) := by simp
    rw [this, numData_append, numData_append, item_bytes k d hd]
  rw [hx, hs, goCopy_fit' (numData k (v.take i)) (putLE k.size (k.bits v[i])) (numData k (v.drop (i + 1))) (d.take k.size)
    (by simp) (by simp [Nat.min_eq_left (Nat.le_of_lt hi)]) (by simp [hd])]

/-! The edits of the model are those of the specification. -/

theorem on_set {t : STy} (hs : t.isSlice = true) (i : Int) (d : Bytes) (v : t.Val) :
    LEdit.on t (.set i d) v = if i < 0 ∨ i.toNat ≥ t.len v then none else t.setItem i.toNat d v := by
  by_cases h : i < 0 ∨ i.toNat ≥ t.len v
  · rw [if_pos h]
    cases t <;> simp only [STy.isSlice, Bool.false_eq_true] at hs
    all_goals
      simp only [STy.len] at h
      simp only [LEdit.on, LEdit.slice]
      rw [if_neg (by omega)]
  · rw [if_neg h]
    cases t <;> simp only [STy.isSlice, Bool.false_eq_true] at hs
    all_goals
      simp only [STy.len] at h
      simp only [LEdit.on, LEdit.slice, STy.setItem, boolOf]
      rw [if_pos (by omega)]
      try rfl

theorem on_ins {t : STy} (hs : t.isSlice = true) (i : Int) (d : Bytes) (v : t.Val) :
    LEdit.on t (.ins i d) v = if i < 0 ∨ i.toNat > t.len v then none else t.insItem i.toNat d v := by
  by_cases h : i < 0 ∨ i.toNat > t.len v
  · rw [if_pos h]
    cases t <;> simp only [STy.isSlice, Bool.false_eq_true] at hs
    all_goals
      simp only [STy.len] at h
      simp only [LEdit.on, LEdit.slice]
      rw [if_neg (by omega)]
  · rw [if_neg h]
    cases t <;> simp only [STy.isSlice, Bool.false_eq_true] at hs
    all_goals
      simp only [STy.len] at h
      have h3 : i.toNat ≤ List.length v := by omega
      simp only [LEdit.on, LEdit.slice, STy.insItem, boolOf]
      rw [if_pos (by omega)]
      simp only [← insertIdx_eq_split v i.toNat _ h3]
      try rfl

theorem on_rem {t : STy} (hs : t.isSlice = true) (i : Int) (v : t.Val) :
    LEdit.on t (.rem i) v = if i < 0 ∨ i.toNat ≥ t.len v then none else some (t.remItem i.toNat v) := by
  by_cases h : i < 0 ∨ i.toNat ≥ t.len v
  · rw [if_pos h]
    cases t <;> simp only [STy.isSlice, Bool.false_eq_true] at hs
    all_goals
      simp only [STy.len] at h
      simp only [LEdit.on, LEdit.slice]
      rw [if_neg (by omega)]
  · rw [if_neg h]
    cases t <;> simp only [STy.isSlice, Bool.false_eq_true] at hs
    all_goals
      simp only [STy.len] at h
      simp only [LEdit.on, LEdit.slice, STy.remItem, ← List.eraseIdx_eq_take_drop_succ]
      rw [if_pos (by omega)]

theorem rem_last {t : STy} (hs : t.isSlice = true) (i : Nat) (v : t.Val) (h1 : t.len v = 1) (hi : i < t.len v) :
    t.remItem i v = t.zero := by
  cases t <;> simp only [STy.isSlice, Bool.false_eq_true] at hs
  all_goals
    simp only [STy.len] at h1 hi
    match v, h1 with
    | [x], _ =>
      have : i = 0 := by simpa using hi
      subst this; simp [STy.remItem, STy.zero]

theorem len_zero {t : STy} : t.len t.zero = 0 := by cases t <;> rfl

/-- What one edit of field `fn` does: `res` is its result, `v` the list before. -/
def EditDone (tys : List Ty) (out : Res (LSt × Bool)) (r : List Val) (c : Nat → Option Val) (fn : Nat) (t : STy)
    (v : t.Val) (res : Option t.Val) : Prop :=
  ∃ L' r' c', out = .ok (L', res.isNone) ∧ PInv tys L' r' c' ∧ listIn t (obj r' c' fn) = res.getD v ∧
    (∀ j, j ≠ fn → obj r' c' j = obj r c j) ∧ (∀ j, j ≠ fn → r'.getD j .absent = r.getD j .absent) ∧
    (t.isSlice = true → r'.getD fn .absent = r.getD fn .absent ∨ r'.getD fn .absent = .absent)

namespace PInv
variable {tys : List Ty} {L : LSt} {r : List Val} {c : Nat → Option Val}

theorem obj_upd (r : List Val) (c : Nat → Option Val) {fn j : Nat} (x : Option Val) (h : j ≠ fn) :
    obj r (upd c fn x) j = obj r c j := by simp [obj, upd_ne _ _ h]

theorem obj_set (r : List Val) (c : Nat → Option Val) {fn j : Nat} (v : Val) (x : Option Val) (h : j ≠ fn) :
    obj (r.set fn v) (upd c fn x) j = obj r c j := by
  rw [obj, obj, upd_ne _ _ h, getD_set_ne h]

/-- Nothing was changed. -/
theorem done_none (h : PInv tys L r c) {fn : Nat} {t : STy} {v : t.Val} (hv : listIn t (obj r c fn) = v) :
    EditDone tys (.ok (L, true)) r c fn t v none :=
  ⟨L, r, c, rfl, h, hv, fun _ _ => rfl, fun _ _ => rfl, fun _ => .inl rfl⟩

/-- The object at hand: what it shows, and what its absence means. -/
theorem getL' (h : PInv tys L r c) {fn : Nat} {t : STy} (hty : tys[fn]? = some (.scalar t)) (hl : t.isList = true) :
    ∃ o L1 c1, L.getL fn t = .ok (o, L1) ∧ PInv tys L1 r c1 ∧ (∀ j, obj r c1 j = obj r c j) ∧
      ((o = none ∧ listIn t (obj r c fn) = t.zero) ∨
        ∃ id, o = some id ∧ L1.lists fn = some id ∧ L1.items id t = .ok (listIn t (obj r c fn)) ∧
          c1 fn = some (.scalar t (listIn t (obj r c fn)))) := by
  obtain ⟨o, L1, c1, e1, e2, _, _, e3, e4⟩ := h.getL hty hl
  refine ⟨o, L1, c1, e1, e2, e3, ?_⟩
  rcases e4 with ⟨a, b⟩ | ⟨id, v, a1, a2, a3, a4⟩
  · exact .inl ⟨a, by rw [b]; rfl⟩
  · have : obj r c fn = .scalar t v := by rw [← e3, obj, a4]; rfl
    have hv : listIn t (obj r c fn) = v := by rw [this]; simp [listIn]
    rw [hv]
    exact .inr ⟨id, a1, a2, a3, a4⟩

theorem isList_of_slice {t : STy} (hs : t.isSlice = true) : t.isList = true := by
  cases t <;> first | rfl | simp [STy.isSlice] at hs

theorem listSet_slice (h : PInv tys L r c) {fn : Nat} {t : STy} (hty : tys[fn]? = some (.scalar t))
    (hs : t.isSlice = true) (i : Nat) (d : Bytes) :
    EditDone tys (applyListSet L (some (.scalar t)) fn i d) r c fn t (listIn t (obj r c fn))
      (LEdit.on t (.set i d) (listIn t (obj r c fn))) := by
  have hnn : ¬ (i : Int) < 0 := by omega
  obtain ⟨o, L1, c1, e1, e2, e3, e4⟩ := h.getL' hty (isList_of_slice hs)
  have hm : applyListSet L (some (.scalar t)) fn i d = (do
      let (o, L) ← L.getL fn t
      match o with
      | none => return (L, true)
      | some id =>
        let v ← L.items id t
        if i ≥ t.len v then return (L, true)
        else
          match t.setItem i d v with
          | none => return (L, true)
          | some w => return ({ L with heap := L.heap.set id (LObj.mk fn t w true) }, false)) := by
    cases t <;> simp only [STy.isSlice, Bool.false_eq_true] at hs <;> rfl
  rw [hm, on_set hs]
  simp only [hnn, false_or, Int.toNat_natCast]
  have hx : EditDone tys (.ok (L1, true)) r c fn t (listIn t (obj r c fn)) none :=
    ⟨L1, r, c1, rfl, e2, by rw [e3]; rfl, fun j _ => e3 j, fun _ _ => rfl, fun _ => .inl rfl⟩
  rcases e4 with ⟨a, b⟩ | ⟨id, a1, a2, a3, a4⟩
  · subst a
    have : i ≥ t.len (listIn t (obj r c fn)) := by rw [b, len_zero]; omega
    rw [if_pos this, e1]
    exact hx
  · subst a1
    rw [e1]
    simp only [Res.ok_bind, a3]
    split
    · exact hx
    · cases hw : t.setItem i d (listIn t (obj r c fn)) with
      | none => exact hx
      | some w =>
        refine ⟨_, r, _, rfl, e2.setHeap hty hs a2 a4 w, ?_, ?_, fun _ _ => rfl, fun _ => .inl rfl⟩
        · simp [obj, listIn]
        · intro j hj; rw [obj_upd _ _ _ hj, e3]

theorem listInsert_slice (h : PInv tys L r c) {fn : Nat} {t : STy} (hty : tys[fn]? = some (.scalar t))
    (hs : t.isSlice = true) (i : Nat) (d : Bytes) :
    EditDone tys (applyListInsert L (some (.scalar t)) fn i d) r c fn t (listIn t (obj r c fn))
      (LEdit.on t (.ins i d) (listIn t (obj r c fn))) := by
  have hnn : ¬ (i : Int) < 0 := by omega
  obtain ⟨o, L1, c1, e1, e2, e3, e4⟩ := h.getL' hty (isList_of_slice hs)
  have hm : applyListInsert L (some (.scalar t)) fn i d = (do
      let (o, L) ← L.getL fn t
      let v ← match o with
        | none => Res.ok t.zero
        | some id => L.items id t
      if i > t.len v then return (L, true)
      else
        match t.insItem i d v with
        | none => return (L, true)
        | some w => return (L.renew fn t w, false)) := by
    cases t <;> simp only [STy.isSlice, Bool.false_eq_true] at hs <;> rfl
  rw [hm, on_ins hs, e1]
  simp only [hnn, false_or, Int.toNat_natCast, Res.ok_bind]
  have hx : EditDone tys (.ok (L1, true)) r c fn t (listIn t (obj r c fn)) none :=
    ⟨L1, r, c1, rfl, e2, by rw [e3]; rfl, fun j _ => e3 j, fun _ _ => rfl, fun _ => .inl rfl⟩
  have key : EditDone tys (if i > t.len (listIn t (obj r c fn)) then pure (L1, true)
      else match t.insItem i d (listIn t (obj r c fn)) with
        | none => pure (L1, true)
        | some w => pure (L1.renew fn t w, false)) r c fn t (listIn t (obj r c fn))
      (if i > t.len (listIn t (obj r c fn)) then none else t.insItem i d (listIn t (obj r c fn))) := by
    split
    · exact hx
    · cases hw : t.insItem i d (listIn t (obj r c fn)) with
      | none => exact hx
      | some w =>
        refine ⟨_, r, _, rfl, e2.renew hty hs w, ?_, ?_, fun _ _ => rfl, fun _ => .inl rfl⟩
        · simp [obj, listIn]
        · intro j hj; rw [obj_upd _ _ _ hj, e3]
  rcases e4 with ⟨a, b⟩ | ⟨id, a1, a2, a3, a4⟩
  · subst a; rw [b] at key ⊢; exact key
  · subst a1; simp only [a3, Res.ok_bind]; exact key

theorem listRemove_slice (h : PInv tys L r c) {fn : Nat} {t : STy} (hty : tys[fn]? = some (.scalar t))
    (hs : t.isSlice = true) (i : Nat) :
    EditDone tys (applyListRemove L (some (.scalar t)) fn i) r c fn t (listIn t (obj r c fn))
      (LEdit.on t (.rem i) (listIn t (obj r c fn))) := by
  have hnn : ¬ (i : Int) < 0 := by omega
  obtain ⟨o, L1, c1, e1, e2, e3, e4⟩ := h.getL' hty (isList_of_slice hs)
  have hm : applyListRemove L (some (.scalar t)) fn i = (do
      let (o, L) ← L.getL fn t
      match o with
      | none => return (L, true)
      | some id =>
        let v ← L.items id t
        if i ≥ t.len v then return (L, true)
        else if t.len v = 1 then
          let L ← L.clear fn
          return (L, false)
        else return (L.renew fn t (t.remItem i v), false)) := by
    cases t <;> simp only [STy.isSlice, Bool.false_eq_true] at hs <;> rfl
  rw [hm, on_rem hs, e1]
  simp only [hnn, false_or, Int.toNat_natCast, Res.ok_bind]
  have hx : EditDone tys (.ok (L1, true)) r c fn t (listIn t (obj r c fn)) none :=
    ⟨L1, r, c1, rfl, e2, by rw [e3]; rfl, fun j _ => e3 j, fun _ _ => rfl, fun _ => .inl rfl⟩
  rcases e4 with ⟨a, b⟩ | ⟨id, a1, a2, a3, a4⟩
  · subst a
    have : i ≥ t.len (listIn t (obj r c fn)) := by rw [b, len_zero]; omega
    rw [if_pos this]
    exact hx
  · subst a1
    simp only [a3, Res.ok_bind]
    split
    · exact hx
    · rename_i hi
      split
      · rename_i h1
        obtain ⟨L2, f1, f2, _, _⟩ := e2.clear hty
        have hlt : fn < r.length := by rw [h.sch]; exact (List.getElem?_eq_some_iff.1 hty).1
        rw [f1]
        refine ⟨L2, _, _, rfl, f2, ?_, ?_, fun j hj => getD_set_ne hj, fun _ => .inr (getD_set_self hlt)⟩
        · rw [obj, upd_self, Option.getD_none, getD_set_self hlt, rem_last hs i _ h1 (by omega)]; rfl
        · intro j hj; rw [obj_set _ _ _ _ hj, e3]
      · refine ⟨_, r, _, rfl, e2.renew hty hs _, ?_, ?_, fun _ _ => rfl, fun _ => .inl rfl⟩
        · simp [obj, listIn]
        · intro j hj; rw [obj_upd _ _ _ hj, e3]

/-- A list of numbers written at once is the list shown. -/
theorem done_raw (h : PInv tys L r c) {fn : Nat} {k : NTy} (hty : tys[fn]? = some (.scalar (.lnum k))) (v w : List k.Val)
    (hs : 8 + sizes (r.set fn (specScalar (.lnum k) w)) < 2 ^ 32) :
    EditDone tys (L.setRaw k fn (numData k w) >>= fun L => pure (L, false)) r c fn (.lnum k) v (some w) := by
  have hlt : fn < r.length := by rw [h.sch]; exact (List.getElem?_eq_some_iff.1 hty).1
  obtain ⟨L', e1, e2, _, _⟩ := h.setRaw hty w hs
  rw [e1]
  refine ⟨L', _, _, rfl, e2, ?_, fun j hj => obj_set _ _ _ _ hj, fun j hj => getD_set_ne hj,
    fun hh => by simp [STy.isSlice] at hh⟩
  rw [obj, upd_self, Option.getD_none, getD_set_self hlt, specScalar]
  cases w <;> simp [STy.isZero, listIn, STy.zero]

theorem listSet_num (h : PInv tys L r c) {fn : Nat} {k : NTy} (hty : tys[fn]? = some (.scalar (.lnum k)))
    (i : Nat) (d : Bytes) (hs : ∀ w, LEdit.on (.lnum k) (.set i d) (listIn (.lnum k) (obj r c fn)) = some w →
      8 + sizes (r.set fn (specScalar (.lnum k) w)) < 2 ^ 32) :
    EditDone tys (applyListSet L (some (.scalar (.lnum k))) fn i d) r c fn (.lnum k) (listIn (.lnum k) (obj r c fn))
      (LEdit.on (.lnum k) (.set i d) (listIn (.lnum k) (obj r c fn))) := by
  have h' := h.unregister fn
  obtain ⟨v, e1, e2, e3⟩ := h'.rawItems hty
  simp only [applyListSet, h.syncField hty, Res.ok_bind, e3]
  rw [e2] at hs ⊢
  cases hv : v with
  | nil =>
    have : LEdit.on (.lnum k) (.set (i : Int) d) [] = none := by
      simp only [LEdit.on, LEdit.slice, List.length_nil]; rw [if_neg (by omega)]
    rw [this]
    simp only [if_true, Res.ok_bind]
    exact h'.done_none (by rw [e2, hv])
  | cons x v' =>
    rw [← hv]
    have hne : ¬ v = [] := by rw [hv]; simp
    simp only [if_neg hne, Res.ok_bind]
    have hlen : i * k.size ≥ (numData k v).length ↔ i ≥ v.length := by
      rw [numData_length]
      exact ⟨fun hh => Nat.le_of_mul_le_mul_right hh k.size_pos, fun hh => Nat.mul_le_mul_right _ hh⟩
    simp only [hlen]
    by_cases hi : i ≥ v.length
    · have : LEdit.on (.lnum k) (.set (i : Int) d) v = none := by
        simp only [LEdit.on, LEdit.slice]; rw [if_neg (by omega)]
      rw [this, if_pos hi]
      exact h'.done_none e2
    · rw [if_neg hi]
      by_cases hd : d.length < k.size
      · have : LEdit.on (.lnum k) (.set (i : Int) d) v = none := by
          simp only [LEdit.on, LEdit.slice]; rw [if_neg (by omega : ¬ k.size ≤ d.length)]; simp
        rw [this, if_pos hd]
        exact h'.done_none e2
      · have he : LEdit.on (.lnum k) (.set (i : Int) d) v = some (v.set i (k.ofBits (getLE (d.take k.size)))) := by
          simp only [LEdit.on, LEdit.slice]
          rw [if_pos (by omega : k.size ≤ d.length), if_pos ⟨by omega, by omega⟩]
          simp
        rw [he, if_neg hd, numData_put k v i d (by omega) (by omega)]
        exact h'.done_raw hty _ _ (hs _ he)

theorem listInsert_num (h : PInv tys L r c) {fn : Nat} {k : NTy} (hty : tys[fn]? = some (.scalar (.lnum k)))
    (i : Nat) (d : Bytes) (hs : ∀ w, LEdit.on (.lnum k) (.ins i d) (listIn (.lnum k) (obj r c fn)) = some w →
      8 + sizes (r.set fn (specScalar (.lnum k) w)) < 2 ^ 32) :
    EditDone tys (applyListInsert L (some (.scalar (.lnum k))) fn i d) r c fn (.lnum k) (listIn (.lnum k) (obj r c fn))
      (LEdit.on (.lnum k) (.ins i d) (listIn (.lnum k) (obj r c fn))) := by
  obtain ⟨v, e1, e2, e3⟩ := h.rawItems hty
  simp only [applyListInsert]
  rw [e2] at hs ⊢
  by_cases hd : d.length < k.size
  · have : LEdit.on (.lnum k) (.ins (i : Int) d) v = none := by
      simp only [LEdit.on, LEdit.slice]; rw [if_neg (by omega : ¬ k.size ≤ d.length)]; simp
    rw [this, if_pos hd]
    exact h.done_none e2
  · have hg : (if v = [] then none else some (numData k v)).getD [] = numData k v := by
      cases v <;> simp [numData]
    simp only [if_neg hd, e3, Res.ok_bind, hg, numData_nil_iff]
    by_cases hi : i > v.length
    · have : LEdit.on (.lnum k) (.ins (i : Int) d) v = none := by
        simp only [LEdit.on, LEdit.slice]; rw [if_neg (by omega : ¬ (0 ≤ (i : Int) ∧ (i : Int) ≤ v.length))]
      rw [this, if_pos hi]
      exact h.done_none e2
    · have he : LEdit.on (.lnum k) (.ins (i : Int) d) v = some (v.insertIdx i (k.ofBits (getLE (d.take k.size)))) := by
        simp only [LEdit.on, LEdit.slice]
        rw [if_pos (by omega : k.size ≤ d.length), if_pos ⟨by omega, by omega⟩]
        simp
      rw [he, if_neg hi, numData_ins k v i d (by omega) (by omega)]
      exact h.done_raw hty _ _ (hs _ he)

theorem listRemove_num (h : PInv tys L r c) {fn : Nat} {k : NTy} (hty : tys[fn]? = some (.scalar (.lnum k)))
    (i : Nat) (hs : ∀ w, LEdit.on (.lnum k) (.rem i) (listIn (.lnum k) (obj r c fn)) = some w →
      8 + sizes (r.set fn (specScalar (.lnum k) w)) < 2 ^ 32) :
    EditDone tys (applyListRemove L (some (.scalar (.lnum k))) fn i) r c fn (.lnum k) (listIn (.lnum k) (obj r c fn))
      (LEdit.on (.lnum k) (.rem i) (listIn (.lnum k) (obj r c fn))) := by
  have h' := h.unregister fn
  have hlt : fn < r.length := by rw [h.sch]; exact (List.getElem?_eq_some_iff.1 hty).1
  obtain ⟨v, e1, e2, e3⟩ := h'.rawItems hty
  simp only [applyListRemove, h.syncField hty, Res.ok_bind, e3]
  rw [e2] at hs ⊢
  cases hv : v with
  | nil =>
    have : LEdit.on (.lnum k) (.rem (i : Int)) [] = none := by
      simp only [LEdit.on, LEdit.slice, List.length_nil]; rw [if_neg (by omega)]
    rw [this]
    simp only [if_true, Res.ok_bind]
    exact h'.done_none (by rw [e2, hv])
  | cons x v' =>
    rw [← hv]
    have hne : ¬ v = [] := by rw [hv]; simp
    simp only [if_neg hne, Res.ok_bind, numData_nil_iff]
    by_cases hi : i ≥ v.length
    · have : LEdit.on (.lnum k) (.rem (i : Int)) v = none := by
        simp only [LEdit.on, LEdit.slice]; rw [if_neg (by omega)]
      rw [this, if_pos hi]
      exact h'.done_none e2
    · have he : LEdit.on (.lnum k) (.rem (i : Int)) v = some (v.eraseIdx i) := by
        simp only [LEdit.on, LEdit.slice]
        rw [if_pos ⟨by omega, by omega⟩]
        simp
      rw [he, if_neg hi]
      split
      · rename_i h1
        obtain ⟨L2, f1, f2, _, _⟩ := h'.clear hty
        rw [f1]
        refine ⟨L2, _, _, rfl, f2, ?_, fun j hj => obj_set _ _ _ _ hj, fun j hj => getD_set_ne hj, fun _ => .inr (getD_set_self hlt)⟩
        have : v.eraseIdx i = [] := by
          apply List.length_eq_zero_iff.1
          rw [List.length_eraseIdx]; split <;> omega
        rw [obj, upd_self, Option.getD_none, getD_set_self hlt]
        simp [this, listIn, STy.zero]
      · rw [numData_rem]
        exact h'.done_raw hty _ _ (hs _ he)

/-- Every list edit of a patch. -/
theorem edit (h : PInv tys L r c) {fn : Nat} {t : STy} (hty : tys[fn]? = some (.scalar t)) (ht : t.editable = true)
    {op : POp} {e : LEdit} (he : op.edit = some e) (hfn : op.fn.toNat = fn) (fuel : Nat)
    (hs : t.isSlice = true ∨ ∀ w, e.on t (listIn t (obj r c fn)) = some w → 8 + sizes (r.set fn (specScalar t w)) < 2 ^ 32) :
    EditDone tys (applyOp fuel tys L op) r c fn t (listIn t (obj r c fn)) (e.on t (listIn t (obj r c fn))) := by
  subst hfn
  have hneg : ∀ (v : t.Val), (∃ d, e = .set op.index.toInt d) ∨ (∃ d, e = .ins op.index.toInt d) ∨ e = .rem op.index.toInt →
      op.index < 0 → e.on t v = none := by
    intro v hh hlt
    have hlt' : op.index.toInt < 0 := by
      have := Int32.lt_iff_toInt_lt.1 hlt
      simpa using this
    rcases hh with ⟨d, rfl⟩ | ⟨d, rfl⟩ | rfl <;> cases t <;> simp only [LEdit.on, LEdit.slice] <;> (try rfl) <;>
      rw [if_neg (by omega)]
  have hpos : ¬ op.index < 0 → op.index.toInt = (op.index.toInt.toNat : Int) := by
    intro hh
    have : ¬ op.index.toInt < 0 := by
      intro h2; apply hh; rw [Int32.lt_iff_toInt_lt]; simpa using h2
    omega
  rw [POp.edit] at he
  rw [applyOp.eq_def]
  simp only [hty, Option.isSome_some, true_and]
  split at he
  · rename_i h1
    have he := (Option.some.inj he).symm
    simp +decide only [h1, if_false, if_true]
    by_cases hlt : op.index < 0
    · rw [if_pos hlt, hneg _ (.inl ⟨_, he⟩) hlt]; exact h.done_none rfl
    · rw [if_neg hlt]
      subst he
      rw [hpos hlt] at hs ⊢
      rw [Int.toNat_natCast]
      by_cases hsl : t.isSlice = true
      · exact h.listSet_slice hty hsl _ _
      · have hs := hs.resolve_left hsl
        cases t <;> simp [STy.editable, STy.isSlice] at ht hsl
        exact h.listSet_num hty _ _ hs
  · rename_i h0
    split at he
    · rename_i h1
      have he := (Option.some.inj he).symm
      simp +decide only [h1, if_false, if_true]
      by_cases hlt : op.index < 0
      · rw [if_pos hlt, hneg _ (.inr (.inl ⟨_, he⟩)) hlt]; exact h.done_none rfl
      · rw [if_neg hlt]
        subst he
        rw [hpos hlt] at hs ⊢
        rw [Int.toNat_natCast]
        by_cases hsl : t.isSlice = true
        · exact h.listInsert_slice hty hsl _ _
        · have hs := hs.resolve_left hsl
          cases t <;> simp [STy.editable, STy.isSlice] at ht hsl
          exact h.listInsert_num hty _ _ hs
    · split at he
      · rename_i h1
        have he := (Option.some.inj he).symm
        simp +decide only [h1, if_false, if_true]
        by_cases hlt : op.index < 0
        · rw [if_pos hlt, hneg _ (.inr (.inr he)) hlt]; exact h.done_none rfl
        · rw [if_neg hlt]
          subst he
          rw [hpos hlt] at hs ⊢
          rw [Int.toNat_natCast]
          by_cases hsl : t.isSlice = true
          · exact h.listRemove_slice hty hsl _
          · have hs := hs.resolve_left hsl
            cases t <;> simp [STy.editable, STy.isSlice] at ht hsl
            exact h.listRemove_num hty _ hs
      · simp at he

end PInv

end Claw
