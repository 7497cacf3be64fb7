import Verif.Lemmas.ApplyStructs
import Verif.Props.Diff

/-!
# The operations of a diff, applied
-/

namespace Claw

set_option linter.unusedSimpArgs false

/-! ### The edits of one list -/

section
variable {α : Type}

/-- The operations are edits of field `fn` that lead from the first list to the second; no list on the way is longer
than `n`. -/
inductive SliceEdits (item : Bytes → Option α) (fn : UInt16) (n : Nat) : List α → List POp → List α → Prop
  | nil (v : List α) : SliceEdits item fn n v [] v
  | cons {v w u : List α} {op : POp} {ops : List POp} {e : LEdit} : op.edit = some e → op.fn = fn →
      e.slice item v = some w → w.length ≤ n → SliceEdits item fn n w ops u → SliceEdits item fn n v (op :: ops) u

theorem SliceEdits.append {item : Bytes → Option α} {fn : UInt16} {n : Nat} {v w u : List α} {o1 o2 : List POp}
    (h1 : SliceEdits item fn n v o1 w) (h2 : SliceEdits item fn n w o2 u) : SliceEdits item fn n v (o1 ++ o2) u := by
  induction h1 with
  | nil => exact h2
  | cons a b c d _ ih => exact .cons a b c d (ih h2)

/-- The items of the first list, replaced where they differ from those of the second. -/
def merged (eqv : α → α → Bool) : List α → List α → List α
  | x :: xs, y :: ys => (if eqv x y then x else y) :: merged eqv xs ys
  | xs, _ => xs

theorem merged_length (eqv : α → α → Bool) (xs ys : List α) : (merged eqv xs ys).length = xs.length := by
  induction xs generalizing ys with
  | nil => simp [merged]
  | cons x xs ih => cases ys <;> simp [merged, ih]

theorem merged_item {eqv : α → α → Bool} {E : α → α → Prop} (hE : ∀ x y, eqv x y = true ↔ E x y)
    (hr : ∀ x, E x x) (xs ys : List α) (j : Nat) (x y : α) (hx : (merged eqv xs ys)[j]? = some x)
    (hy : ys[j]? = some y) : E x y := by
  induction xs generalizing ys j with
  | nil => simp [merged] at hx
  | cons x' xs ih =>
    cases ys with
    | nil => simp at hy
    | cons y' ys =>
      cases j with
      | zero =>
        simp [merged] at hx hy
        subst hy
        by_cases he : eqv x' y' = true
        · simp [he] at hx; subst hx; exact (hE _ _).1 he
        · simp [he] at hx; subst hx; exact hr _
      | succ j => exact ih ys j (by simpa [merged] using hx) (by simpa using hy)

theorem toInt_ofNat {i : Nat} (h : i < 2 ^ 31) : (Int32.ofNat i).toInt = i := by
  exact Int32.toInt_ofNat_of_lt h

theorem setOps_edits {item : Bytes → Option α} {enc : α → Bytes} (hi : ∀ y, item (enc y) = some y)
    (eqv : α → α → Bool) (fn : UInt16) (n : Nat) : ∀ (xs ys pre : List α), (pre ++ xs).length ≤ n →
    (pre ++ xs).length < 2 ^ 31 →
    SliceEdits item fn n (pre ++ xs) (setOps fn eqv enc pre.length xs ys) (pre ++ merged eqv xs ys)
  | [], ys, pre, _, _ => by simp only [setOps, merged]; exact .nil _
  | x :: xs, [], pre, _, _ => by simp only [setOps, merged]; exact .nil _
  | x :: xs, y :: ys, pre, h1, h2 => by
    have hn : (pre ++ [x]).length = pre.length + 1 := by simp
    have hn' : (pre ++ [y]).length = pre.length + 1 := by simp
    have l1 : (pre ++ x :: xs).length = pre.length + xs.length + 1 := by simp; omega
    rw [setOps, merged]
    by_cases he : eqv x y = true
    · rw [if_pos he, if_pos he]
      have := setOps_edits hi eqv fn n xs ys (pre ++ [x]) (by simpa [Nat.add_assoc] using h1) (by simpa using h2)
      rw [hn] at this
      simpa using this
    · rw [if_neg he, if_neg he]
      have := setOps_edits hi eqv fn n xs ys (pre ++ [y]) (by simp at h1 ⊢; omega) (by simp at h2 ⊢; omega)
      rw [hn'] at this
      simp only [List.append_assoc, List.singleton_append] at this
      have hlt : pre.length < 2 ^ 31 := by omega
      refine .cons (e := .set pre.length (enc y)) ?_ rfl ?_ ?_ this
      · simp only [POp.edit, if_true, toInt_ofNat hlt]
      · simp only [LEdit.slice, hi]
        rw [if_pos ⟨by omega, by rw [l1]; omega⟩]
        simp
      · simp at h1 ⊢; omega

theorem insOps_edits {item : Bytes → Option α} {enc : α → Bytes} (hi : ∀ y, item (enc y) = some y)
    (fn : UInt16) (n : Nat) : ∀ (ys v : List α), (v ++ ys).length ≤ n → (v ++ ys).length < 2 ^ 31 →
    SliceEdits item fn n v (insOps fn enc v.length ys) (v ++ ys)
  | [], v, _, _ => by simp only [insOps, List.append_nil]; exact .nil _
  | y :: ys, v, h1, h2 => by
    have := insOps_edits hi fn n ys (v ++ [y]) (by simpa using h1) (by simpa using h2)
    simp only [List.length_append, List.length_cons, List.length_nil, Nat.zero_add, List.append_assoc,
      List.singleton_append] at this
    rw [insOps]
    have hlt : v.length < 2 ^ 31 := by simp at h2; omega
    refine .cons (e := .ins v.length (enc y)) ?_ rfl ?_ ?_ this
    · simp +decide only [POp.edit, if_true, if_false, toInt_ofNat hlt]
    · simp only [LEdit.slice, hi]
      rw [if_pos ⟨by omega, by omega⟩]
      simp [List.insertIdx_length_self]
    · simp at h1 ⊢; omega

theorem remOps_edits (item : Bytes → Option α) (fn : UInt16) (n lo : Nat) : ∀ (k : Nat) (v : List α),
    v.length = lo + k → v.length ≤ n → v.length < 2 ^ 31 → SliceEdits item fn n v (remOps fn lo k) (v.take lo)
  | 0, v, h, _, _ => by rw [remOps, List.take_of_length_le (by omega)]; exact .nil _
  | k + 1, v, h, h1, h2 => by
    have := remOps_edits item fn n lo k (v.eraseIdx (lo + k)) (by rw [List.length_eraseIdx]; split <;> omega)
      (by rw [List.length_eraseIdx]; split <;> omega) (by rw [List.length_eraseIdx]; split <;> omega)
    have ht : (v.eraseIdx (lo + k)).take lo = v.take lo := by
      rw [List.eraseIdx_eq_take_drop_succ, List.take_append_of_le_length (by simp; omega), List.take_take]
      congr 1; omega
    rw [ht] at this
    rw [remOps]
    have hlt : lo + k < 2 ^ 31 := by omega
    refine .cons (e := .rem (lo + k : Nat)) ?_ rfl ?_ ?_ this
    · simp +decide only [POp.edit, if_true, if_false, toInt_ofNat hlt]
    · simp only [LEdit.slice]
      rw [if_pos ⟨by omega, by omega⟩, Int.toNat_natCast]
    · rw [List.length_eraseIdx]; split <;> omega

/-- The operations for one list lead to a list equal to the target. -/
theorem diff_edits {item : Bytes → Option α} {enc : α → Bytes} (hi : ∀ y, item (enc y) = some y)
    {eqv : α → α → Bool} {E : α → α → Prop} (hE : ∀ x y, eqv x y = true ↔ E x y) (hr : ∀ x, E x x)
    (fn : UInt16) (a b : List α) (ha : a.length < 2 ^ 31) (hb : b.length < 2 ^ 31) :
    ∃ w, SliceEdits item fn (max a.length b.length) a (setOps fn eqv enc 0 a b ++
        insOps fn enc a.length (b.drop a.length) ++ remOps fn b.length (a.length - b.length)) w ∧
      EqvLists E w b := by
  have h1 := setOps_edits hi eqv fn (max a.length b.length) a b [] (by simp; omega) (by simpa using ha)
  simp only [List.nil_append, List.length_nil] at h1
  have hm := merged_length eqv a b
  have hl : (merged eqv a b ++ b.drop a.length).length = max a.length b.length := by simp [hm]; omega
  have h2 := insOps_edits hi fn (max a.length b.length) (b.drop a.length) (merged eqv a b)
    (by omega) (by omega)
  rw [hm] at h2
  have h3 := remOps_edits item fn (max a.length b.length) b.length (a.length - b.length)
    (merged eqv a b ++ b.drop a.length) (by rw [hl]; omega) (by omega) (by omega)
  refine ⟨_, (h1.append h2).append h3, ?_, ?_⟩
  · rw [List.length_take, hl]; omega
  · intro j x y hx hy
    have hj := (List.getElem?_eq_some_iff.1 hy).1
    rw [List.getElem?_take, if_pos hj] at hx
    by_cases hlt : j < a.length
    · rw [List.getElem?_append_left (by rw [hm]; exact hlt)] at hx
      exact merged_item hE hr a b j x y hx hy
    · rw [List.getElem?_append_right (by rw [hm]; omega), hm, List.getElem?_drop] at hx
      rw [show a.length + (j - a.length) = j by omega, hy] at hx
      rw [Option.some.inj hx]; exact hr _

end

/-! ### One field -/

theorem AllApplied.append {f : LSt → POp → Res (LSt × Bool)} {L L1 L2 : LSt} {o1 o2 : List POp}
    (h1 : AllApplied f L o1 L1) (h2 : AllApplied f L1 o2 L2) : AllApplied f L (o1 ++ o2) L2 := by
  induction h1 with
  | nil => exact h2
  | cons a _ ih => exact .cons a (ih h2)

/-- There is room for `n` bytes in field `fn`. -/
def Room (r : List Val) (fn n : Nat) : Prop := ∀ x : Val, x.size ≤ n → 8 + sizes (r.set fn x) < 2 ^ 32

/-- What applying `ops` does to field `fn`: it satisfies `P` then, and has at most `n` bytes. -/
def Became (fuel : Nat) (tys : List Ty) (L : LSt) (ops : List POp) (r : List Val) (c : Nat → Option Val) (fn n : Nat)
    (P : Val → Prop) : Prop :=
  ∃ L' r' c', AllApplied (applyOp fuel tys) L ops L' ∧ PInv tys L' r' c' ∧ P (obj r' c' fn) ∧
    (∀ j, j ≠ fn → obj r' c' j = obj r c j) ∧ (∀ j, j ≠ fn → r'.getD j .absent = r.getD j .absent) ∧
    (r'.getD fn .absent).size ≤ n

theorem set_eq_of_ne {r r' : List Val} {fn : Nat} (hl : r'.length = r.length)
    (h : ∀ j, j ≠ fn → r'.getD j .absent = r.getD j .absent) (x : Val) : r'.set fn x = r.set fn x := by
  apply List.ext_getElem? 
  intro j
  by_cases hj : j = fn
  · subst hj; simp only [List.getElem?_set, if_true]; rw [hl]
  · rw [List.getElem?_set_ne (Ne.symm hj), List.getElem?_set_ne (Ne.symm hj)]
    have := h j hj
    simp only [List.getD_eq_getElem?_getD] at this
    by_cases hlt : j < r.length
    · rw [List.getElem?_eq_getElem hlt, List.getElem?_eq_getElem (by omega)] at this ⊢
      simpa using this
    · rw [List.getElem?_eq_none (by omega), List.getElem?_eq_none (by omega)]

theorem Became.none {fuel : Nat} {tys : List Ty} {L : LSt} {r : List Val} {c : Nat → Option Val} {fn n : Nat}
    {P : Val → Prop} (h : PInv tys L r c) (hn : (r.getD fn .absent).size ≤ n) (hp : P (obj r c fn)) :
    Became fuel tys L [] r c fn n P :=
  ⟨L, r, c, .nil, h, hp, fun _ _ => rfl, fun _ _ => rfl, hn⟩

/-- One operation. -/
theorem Became.one {fuel : Nat} {tys : List Ty} {L L' : LSt} {r r' : List Val} {c c' : Nat → Option Val} {fn n : Nat}
    {P : Val → Prop} {op : POp} (he : applyOp fuel tys L op = .ok (L', false)) (h : PInv tys L' r' c')
    (hn : (r'.getD fn .absent).size ≤ n) (hp : P (obj r' c' fn)) (h1 : ∀ j, j ≠ fn → obj r' c' j = obj r c j)
    (h2 : ∀ j, j ≠ fn → r'.getD j .absent = r.getD j .absent) : Became fuel tys L [op] r c fn n P :=
  ⟨L', r', c', .cons he .nil, h, hp, h1, h2, hn⟩

/-- The edits of one list field; number lists, which are written at once, have room. -/
inductive EditsTo (t : STy) (fn : UInt16) (n : Nat) : t.Val → List POp → t.Val → Prop
  | nil (v : t.Val) : EditsTo t fn n v [] v
  | cons {v w u : t.Val} {op : POp} {ops : List POp} {e : LEdit} : op.edit = some e → op.fn = fn →
      e.on t v = some w → t.isSlice = true ∨ (specScalar t w).size ≤ n → EditsTo t fn n w ops u →
      EditsTo t fn n v (op :: ops) u

theorem EditsTo.bools {fn : UInt16} {n k : Nat} {ops : List POp} {v u : List Bool}
    (h : SliceEdits (fun d => d.head?.map (· != 0)) fn k v ops u) : EditsTo .lbool fn n v ops u := by
  induction h with
  | nil v => exact .nil (t := .lbool) v
  | cons a b c _ _ ih => exact .cons (t := .lbool) a b c (.inl rfl) ih

theorem EditsTo.strs {fn : UInt16} {n k : Nat} {ops : List POp} {v u : List Bytes}
    (h : SliceEdits some fn k v ops u) : EditsTo .lstr fn n v ops u := by
  induction h with
  | nil v => exact .nil (t := .lstr) v
  | cons a b c _ _ ih => exact .cons (t := .lstr) a b c (.inl rfl) ih

theorem EditsTo.bytes {fn : UInt16} {n k : Nat} {ops : List POp} {v u : List Bytes}
    (h : SliceEdits some fn k v ops u) : EditsTo .lbytes fn n v ops u := by
  induction h with
  | nil v => exact .nil (t := .lbytes) v
  | cons a b c _ _ ih => exact .cons (t := .lbytes) a b c (.inl rfl) ih

theorem EditsTo.nums {fn : UInt16} {n N : Nat} (k : NTy) {ops : List POp} {v u : List k.Val}
    (h : SliceEdits (fun d => if k.size ≤ d.length then some (k.ofBits (getLE (d.take k.size))) else none) fn N v ops u)
    (hn : ∀ w : List k.Val, w.length ≤ N → (specScalar (.lnum k) w).size ≤ n) : EditsTo (.lnum k) fn n v ops u := by
  induction h with
  | nil v => exact .nil (t := .lnum k) v
  | cons a b c d _ ih => exact .cons (t := .lnum k) a b c (.inr (hn _ d)) ih

/-- The edits of a list, applied. -/
theorem edits_applied {fuel : Nat} {tys : List Ty} {fn : UInt16} {t : STy} (hty : tys[fn.toNat]? = some (.scalar t))
    (ht : t.editable = true) {n : Nat} {v u : t.Val} {ops : List POp} (he : EditsTo t fn n v ops u) :
    ∀ {L : LSt} {r : List Val} {c : Nat → Option Val}, PInv tys L r c → Room r fn.toNat n →
      (r.getD fn.toNat .absent).size ≤ n → listIn t (obj r c fn.toNat) = v →
      Became fuel tys L ops r c fn.toNat n fun x => listIn t x = u := by
  induction he with
  | nil v => intro L r c h _ hn hv; exact Became.none h hn hv
  | @cons v w u op ops e h1 h2 h3 h4 _ ih =>
    intro L r c h hr hn hv
    subst h2
    have hlt : op.fn.toNat < r.length := by rw [h.sch]; exact (List.getElem?_eq_some_iff.1 hty).1
    obtain ⟨L1, r1, c1, f1, f2, f3, f4, f5, f6⟩ := h.edit hty ht h1 rfl fuel (by
      rcases h4 with h4 | h4
      · exact .inl h4
      · refine .inr fun w' hw => hr _ ?_
        rw [hv, h3] at hw
        rw [← Option.some.inj hw]; exact h4)
    rw [hv, h3] at f1 f3
    have hl : r1.length = r.length := by rw [f2.sch, h.sch]
    have hn1 : (r1.getD op.fn.toNat .absent).size ≤ n := by
      by_cases hs : t.isSlice = true
      · rcases f6 hs with e | e
        · rw [e]; exact hn
        · rw [e]; simp [Val.size]
      · have hk : ∃ k, t = .lnum k := by cases t <;> simp [STy.editable, STy.isSlice] at ht hs; exact ⟨_, rfl⟩
        obtain ⟨k, rfl⟩ := hk
        obtain ⟨v', a1, a2, _⟩ := f2.rawItems hty
        rw [a1]
        have : v' = w := by simpa [a2] using f3
        rw [this]
        exact h4.resolve_left hs
    obtain ⟨L2, r2, c2, g1, g2, g3, g4, g5, g6⟩ := ih f2
      (fun x hx => by rw [set_eq_of_ne hl f5 x]; exact hr x hx) hn1 f3
    exact ⟨L2, r2, c2, .cons f1 g1, g2, g3, fun j hj => by rw [g4 j hj, f4 j hj], fun j hj => by rw [g5 j hj, f5 j hj], g6⟩

section
variable {fuel : Nat} {tys : List Ty} {L : LSt} {r : List Val} {c : Nat → Option Val} {fn : UInt16} {n : Nat}

theorem obj_set_self {r : List Val} {c : Nat → Option Val} {i : Nat} {v : Val} (h : c i = none) (hi : i < r.length) :
    obj (r.set i v) c i = v := by
  rw [obj, h, Option.getD_none, PInv.getD_set_self hi]

theorem clear_applied (h : PInv tys L r c) {ty : Ty} (hty : tys[fn.toNat]? = some ty) :
    Became fuel tys L [⟨fn, PClear, -1, []⟩] r c fn.toNat n fun x => x = .absent := by
  have hlt : fn.toNat < r.length := by rw [h.sch]; exact (List.getElem?_eq_some_iff.1 hty).1
  obtain ⟨L', e1, e2, _⟩ := h.clear hty
  refine Became.one (L' := L') ?_ e2 ?_ ?_ (fun j hj => PInv.obj_set _ _ _ _ hj) (fun j hj => PInv.getD_set_ne hj)
  · rw [applyOp.eq_def]
    simp +decide only [hty, if_false, if_true, applyClear, e1, Res.ok_bind]
    rfl
  · rw [PInv.getD_set_self hlt]; simp [Val.size]
  · exact obj_set_self (by simp) hlt

theorem empty_applied (h : PInv tys L r c) {ty : Ty} (hty : tys[fn.toNat]? = some ty) :
    Became fuel tys L [⟨fn, PListReplace, -1, []⟩] r c fn.toNat n fun x => x = .absent := by
  have hlt : fn.toNat < r.length := by rw [h.sch]; exact (List.getElem?_eq_some_iff.1 hty).1
  obtain ⟨L', e1, e2, _⟩ := h.clear hty
  refine Became.one (L' := L') ?_ e2 ?_ ?_ (fun j hj => PInv.obj_set _ _ _ _ hj) (fun j hj => PInv.getD_set_ne hj)
  · rw [applyOp.eq_def]
    simp +decide only [hty, if_false, if_true, applyListReplace, List.length_nil, applyClear, e1, Res.ok_bind]
    rfl
  · rw [PInv.getD_set_self hlt]; simp [Val.size]
  · exact obj_set_self (by simp) hlt

theorem replace_applied (h : PInv tys L r c) {t : STy} (hty : tys[fn.toNat]? = some (.scalar t)) (hs : t.isSlice = true)
    (hn : (r.getD fn.toNat .absent).size ≤ n) {d : Bytes} (hd : d.length ≠ 0) {v : t.Val} (hv : t.replItems d = some v) :
    Became fuel tys L [⟨fn, PListReplace, -1, d⟩] r c fn.toNat n fun x => listIn t x = v := by
  refine Became.one (L' := L.renew fn.toNat t v) ?_ (h.renew hty hs v) hn ?_ (fun j hj => PInv.obj_upd _ _ _ hj)
    (fun _ _ => rfl)
  · rw [applyOp.eq_def]
    simp +decide only [hty, if_false, if_true, applyListReplace, hd]
    cases t <;> simp only [STy.isSlice, Bool.false_eq_true] at hs <;> simp only [hv]
  · simp [obj, listIn]

theorem numbers_applied (h : PInv tys L r c) {k : NTy} (hty : tys[fn.toNat]? = some (.scalar (.lnum k)))
    {v : List k.Val} (hr : Room r fn.toNat n) (hn : (specScalar (.lnum k) v).size ≤ n) (hv : v ≠ []) :
    Became fuel tys L [⟨fn, PListReplace, -1, numData k v⟩] r c fn.toNat n fun x => listIn (.lnum k) x = v := by
  have hlt : fn.toNat < r.length := by rw [h.sch]; exact (List.getElem?_eq_some_iff.1 hty).1
  obtain ⟨L', e1, e2, _⟩ := h.setRaw hty v (hr _ hn)
  have hd : ¬ (numData k v).length = 0 := by
    rw [numData_length]
    have := k.size_pos
    have := List.length_pos_iff.2 hv
    exact Nat.ne_of_gt (Nat.mul_pos this k.size_pos)
  refine Became.one (L' := L') ?_ e2 ?_ ?_ (fun j hj => PInv.obj_set _ _ _ _ hj) (fun j hj => PInv.getD_set_ne hj)
  · rw [applyOp.eq_def]
    simp +decide only [hty, if_false, if_true, applyListReplace, hd, e1, Res.ok_bind]
    rfl
  · rw [PInv.getD_set_self hlt]; exact hn
  · have : STy.isZero (.lnum k) v = false := by cases v <;> simp [STy.isZero] at hv ⊢
    rw [obj_set_self (by simp) hlt]
    simp [specScalar, this, listIn]

theorem plain_uncached (h : PInv tys L r c) {i : Nat} {ty : Ty} (hty : tys[i]? = some ty)
    (hl : ∀ t, ty = .scalar t → t.isList = false) : c i = none := by
  rcases h.objs i with ⟨e, _⟩ | ⟨_, t, _, _, _, _, _, e, e'⟩
  · exact e
  · rw [hty] at e
    rw [hl t (Option.some.inj e)] at e'; simp at e'

theorem STy.ofPatch_patchData (t : STy) (ht : t.plain = true) (v : t.Val) : t.ofPatch (t.patchData v) = some v := by
  have hn : ∀ (k : NTy) (v : k.Val), k.ofPatch (k.patchData v) = some v := by
    intro k v
    simp only [NTy.ofPatch, NTy.patchData, putLE_length, Nat.lt_irrefl, if_false]
    rw [List.take_of_length_le (by simp), getLE_putLE_of_lt (k.bits_lt v), k.ofBits_bits]
  cases t <;> simp only [STy.plain, Bool.false_eq_true] at ht <;> simp only [STy.ofPatch, STy.patchData]
  case bool => cases v <;> simp [boolOf, boolData]
  all_goals exact hn _ _

theorem set_applied (h : PInv tys L r c) {t : STy} (hty : tys[fn.toNat]? = some (.scalar t)) (ht : t.plain = true)
    {v : t.Val} (hc : t.Clean v) (hr : Room r fn.toNat n) (hn : (specScalar t v).size ≤ n) :
    Became fuel tys L [⟨fn, PSet, -1, t.patchData v⟩] r c fn.toNat n fun x => x = specScalar t v := by
  have hlt : fn.toNat < r.length := by rw [h.sch]; exact (List.getElem?_eq_some_iff.1 hty).1
  have hl : t.isList = false := by cases t <;> first | rfl | simp [STy.plain] at ht
  have hu := plain_uncached h hty (fun t' e => by cases e; exact hl)
  obtain ⟨st, e1, e2, e3⟩ := set_rep h.rep (by rw [h.len]; omega) h.max fn.toNat (by rw [h.len]; exact hlt) t v hc.storable
    (hr _ hn)
  refine Became.one (L' := { L with st := st }) (r' := r.set fn.toNat (specScalar t v)) (c' := c) ?_ ?_ ?_ ?_ ?_
    (fun j hj => PInv.getD_set_ne hj)
  · rw [applyOp.eq_def]
    simp +decide only [hty, if_false, if_true, applySet, t.ofPatch_patchData ht, e1, Res.ok_bind]
    rfl
  · refine h.setSt e2 e3 (by simp) (h.canon.set _ _ (canon_specScalar t v hc)) (h.typed_set hty ?_) ?_
    · simp only [specScalar]; split <;> simp [Val.HasTy]
    · intro j k w hw
      by_cases hj : j = fn.toNat
      · subst hj; rw [hu] at hw; simp at hw
      · exact PInv.getD_set_ne hj
  · rw [PInv.getD_set_self hlt]; exact hn
  · exact obj_set_self hu hlt
  · intro j hj; rw [obj, obj, PInv.getD_set_ne hj]

/-- The bytes of a view. -/
theorem child_bytes {ctys : List Ty} {y : St} {ws : List Val} (h : Child ctys y ws) :
    ∃ d, viewBytes y = .ok d ∧ SegOf d ws := by
  obtain ⟨h0, r, pad, h1, _⟩ := h
  refine ⟨_, ?_, r % 65536, Nat.mod_lt _ (by omega), rfl⟩
  simp only [viewBytes, marshal_rep h1 h0, Res.ok_bind, total_padTo, flatten_padTo, hdr]
  rw [putLE_mod 2 r]
  rfl

theorem children_bytes {ctys : List Ty} : ∀ {ys : List St} {items : List (List Val)}, Children ctys ys items →
    ∃ ds, mapRes viewBytes ys = .ok ds ∧ ds.length = items.length ∧
      (∀ (j : Nat) (d : Bytes) (vs : List Val), ds[j]? = some d → items[j]? = some vs → SegOf d vs)
  | [], [], _ => ⟨[], rfl, rfl, by simp⟩
  | y :: ys, vs :: items, h => by
    simp only [Children] at h
    obtain ⟨d, e1, e2⟩ := child_bytes h.1
    obtain ⟨ds, e3, e4, e5⟩ := children_bytes h.2
    refine ⟨d :: ds, by simp [mapRes, e1, e3], by simp [e4], ?_⟩
    intro j d' vs' hd hv
    cases j with
    | zero => simp at hd hv; subst hd hv; exact e2
    | succ j => exact e5 j d' vs' (by simpa using hd) (by simpa using hv)
  | [], _ :: _, h => by simp [Children] at h
  | _ :: _, [], h => by simp [Children] at h

/-- A struct set as a whole. -/
theorem struct_applied (h : PInv tys L r c) {ctys : List Ty} (hty : tys[fn.toNat]? = some (.struct ctys))
    {ws : List Val} {d : Bytes} (hd : SegOf d ws) (hc : (Val.struct ws).Canon) (ht : FieldsHaveTy ws ctys)
    (hr : Room r fn.toNat n) (hn : (Val.struct ws).size ≤ n) :
    Became fuel tys L [⟨fn, PSet, -1, d⟩] r c fn.toNat n fun x => x = .struct ws := by
  have hlt : fn.toNat < r.length := by rw [h.sch]; exact (List.getElem?_eq_some_iff.1 hty).1
  have hu := plain_uncached h hty (fun t' e => by simp at e)
  have hs := hr _ hn
  have hc' := hc
  simp only [Val.Canon] at hc'
  have hsz : 8 + sizes ws < 2 ^ 32 := by
    have := sizes_ge (r.set fn.toNat (.struct ws)) fn.toNat
    rw [PInv.getD_set_self hlt] at this
    simp only [Val.size] at this
    omega
  obtain ⟨c0, c1, e1, e2, e3, _⟩ := decode_item hd ctys.length hc'.2.2 hc'.1 hsz
  obtain ⟨st, f1, f2, f3, _⟩ := store_rep h.rep (by rw [h.len]; omega) h.max fn.toNat (by rw [h.len]; exact hlt)
    (.struct ws) hc.stored d hs (hdr fn.toNat FTStruct (8 + (encs ws 0).flatten.length) ++ (encs ws 0).flatten)
    (by intro _; simp [Val.enc, total])
  refine Became.one (L' := { L with st := st }) (r' := r.set fn.toNat (.struct ws)) (c' := c) ?_ ?_ ?_ ?_ ?_
    (fun j hj => PInv.getD_set_ne hj)
  · have hset : setNestedStruct L.st fn.toNat (some c1) = .ok st := by
      obtain ⟨q, _, hq⟩ := hd
      rw [← f1]
      simp only [setNestedStruct, e3]
      congr 1
      · rw [hq]
        have hne : sizes ws ≠ 0 := by
          intro h0
          have := (sizes_eq_zero ws).1 h0
          rw [hc'.2.1] at this; simp at this
        simp only [List.length_append, hdr_length, encs_flatten_length, HeaderSize, Val.isAbsent]
        simp; omega
      · rw [hq]; exact nestedBlob_eq _ _ _ _ (by rw [encs_flatten_length]; omega)
    rw [applyOp.eq_def]
    simp +decide only [hty, if_false, if_true, applySet, e1, e2, hset, Res.ok_bind]
    rfl
  · refine h.setSt f2 f3 (by simp) (h.canon.set _ _ hc) (h.typed_set hty (by simpa [Val.HasTy] using ht)) ?_
    intro j k w hw
    by_cases hj : j = fn.toNat
    · subst hj; rw [hu] at hw; simp at hw
    · exact PInv.getD_set_ne hj
  · rw [PInv.getD_set_self hlt]; exact hn
  · exact obj_set_self hu hlt
  · intro j hj; rw [obj, obj, PInv.getD_set_ne hj]

/-- Reading structs that were written one after the other. -/
theorem readStructs_all : ∀ (ds : List Bytes) (items : List (List Val)), ds.length = items.length →
    (∀ (j : Nat) (d : Bytes) (vs : List Val), ds[j]? = some d → items[j]? = some vs → SegOf d vs) →
    itemSizes items < 2 ^ 40 → readStructs ds.length ds.flatten = some ds
  | [], _, _, _, _ => rfl
  | d :: ds, [], h, _, _ => by simp at h
  | d :: ds, vs :: items, hl, h, hs => by
    simp only [itemSizes] at hs
    have ih := readStructs_all ds items (by simpa using hl)
      (fun j d' vs' a b => h (j + 1) d' vs' (by simpa using a) (by simpa using b)) (by omega)
    obtain ⟨q, hq, hd⟩ := h 0 d vs rfl rfl
    have hlen : d.length = 8 + sizes vs := by rw [hd, List.length_append, hdr_length, encs_flatten_length]
    have htake : (d ++ ds.flatten).take HeaderSize = hdr q FTStruct (8 + sizes vs) := by
      rw [hd, List.append_assoc, total_encs]; exact List.take_left' (by simp)
    have hdec := decodeHeader_hdr hq (ft := FTStruct) (by decide) (by omega : 8 + sizes vs < 2 ^ 40) []
    rw [List.append_nil] at hdec
    simp only [List.length_cons, List.flatten_cons, readStructs, htake, hdec]
    rw [if_neg (by simp [hlen, HeaderSize]; omega), if_neg (by simp [hlen, HeaderSize])]
    rw [List.drop_left' hlen, List.take_left' hlen, ih]
    rfl

/-- A list of structs set as a whole, where there was none. -/
theorem structs_applied (h : PInv tys L r c) {ctys : List Ty} (hty : tys[fn.toNat]? = some (.structs ctys))
    (ha : r.getD fn.toNat .absent = .absent) {items : List (List Val)} {ds : List Bytes} (hl : ds.length = items.length)
    (hd : ∀ (j : Nat) (d : Bytes) (vs : List Val), ds[j]? = some d → items[j]? = some vs → SegOf d vs)
    (hc : (Val.structs items).Canon) (ht : ItemsHaveTy items ctys)
    (hr : Room r fn.toNat n) (hn : (Val.structs items).size ≤ n) :
    Became fuel tys L [⟨fn, PListReplace, -1, structsData ds⟩] r c fn.toNat n fun x => x = .structs items := by
  have hlt : fn.toNat < r.length := by rw [h.sch]; exact (List.getElem?_eq_some_iff.1 hty).1
  have hu := h.structs_uncached hty
  simp only [Val.Canon] at hc
  have hsp : specStructs items = .structs items := by
    cases items with
    | nil => exact absurd rfl hc.1
    | cons => simp [specStructs]
  have hs := hr _ hn
  have hsz : 8 + itemSizes items < 2 ^ 32 := by
    have := sizes_ge (r.set fn.toNat (.structs items)) fn.toNat
    rw [PInv.getD_set_self hlt] at this
    simp only [Val.size] at this
    omega
  have hcount : ∀ l : List (List Val), l.length ≤ itemSizes l := by
    intro l
    induction l with
    | nil => simp
    | cons v l ih => simp only [List.length_cons, itemSizes]; omega
  have hne : ds.length ≠ 0 := by
    rw [hl]; intro e; exact hc.1 (List.length_eq_zero_iff.1 e)
  have hsegs : ∀ (ds : List Bytes) (items : List (List Val)), ds.length = items.length →
      (∀ (j : Nat) (d : Bytes) (vs : List Val), ds[j]? = some d → items[j]? = some vs → SegOf d vs) → ItemSegs ds items := by
    intro ds
    induction ds with
    | nil => intro items hl _; cases items <;> simp at hl; trivial
    | cons d ds ih =>
      intro items hl hd
      cases items with
      | nil => simp at hl
      | cons vs items =>
        obtain ⟨q, _, hq⟩ := hd 0 d vs rfl rfl
        exact ⟨⟨q, hq⟩, ih items (by simpa using hl)
          (fun j d' vs' a b => hd (j + 1) d' vs' (by simpa using a) (by simpa using b))⟩
  obtain ⟨old, o1, o2, _⟩ := h.structItems hty
  rw [ha] at o1
  simp only [itemsIn, if_true] at o1
  have hread := readStructs_all ds items hl hd (by omega)
  obtain ⟨L', f1, f2, _⟩ := h.storeStructs hty (hsegs ds items hl hd) hc.2 ht (by rw [hsp]; exact hs)
  rw [hsp] at f2
  refine Became.one (L' := L') ?_ f2 ?_ ?_ ?_ (fun j hj => PInv.getD_set_ne hj)
  · have hdata : structsData ds = putLE 4 ds.length ++ ds.flatten := by simp [structsData, hne]
    have hlen : 4 ≤ (structsData ds).length := by rw [hdata]; simp
    have hget : getLE ((structsData ds).take 4) = ds.length := by
      rw [hdata, List.take_left' (by simp)]
      apply getLE_putLE_of_lt
      have := hcount items
      rw [hl]; omega
    have hdrop : (structsData ds).drop 4 = ds.flatten := by rw [hdata]; exact List.drop_left' (by simp)
    rw [applyOp.eq_def]
    simp +decide only [hty, if_false, if_true, applyListReplace]
    rw [if_neg (by omega), if_neg (by omega)]
    simp only [o1, Res.ok_bind, hget, hdrop, hread, Option.getD_none, List.nil_append, f1]
    rfl
  · rw [PInv.getD_set_self hlt]; exact hn
  · exact obj_set_self hu hlt
  · intro j hj; rw [obj, obj, PInv.getD_set_ne hj]

end

/-! ### The items of a `ListReplace` -/

theorem itemsOfF_all : ∀ (v : List Bytes), itemBytes v < 2 ^ 32 → itemsOfF v.length (itemsData v) = some v
  | [], _ => rfl
  | x :: v, h => by
    simp only [itemBytes, List.map_cons, List.sum_cons] at h
    have ih := itemsOfF_all v (by simp only [itemBytes]; omega)
    have hd : itemsData (x :: v) = putLE 4 x.length ++ (x ++ itemsData v) := by simp [itemsData]
    have h1 : (itemsData (x :: v)).take 4 = putLE 4 x.length := by rw [hd]; exact List.take_left' (by simp)
    have h2 : (itemsData (x :: v)).drop 4 = x ++ itemsData v := by rw [hd]; exact List.drop_left' (by simp)
    simp only [List.length_cons, itemsOfF]
    rw [if_neg (by rw [hd]; simp), h1, h2, getLE_putLE_of_lt (by omega)]
    simp [ih]

theorem itemsOf_replData (v : List Bytes) (hv : v ≠ []) (h : itemBytes v < 2 ^ 32) :
    (replData v).length ≠ 0 ∧ itemsOf (replData v) = some v := by
  have hl : ∀ l : List Bytes, l.length ≤ itemBytes l := by
    intro l
    induction l with
    | nil => simp
    | cons x l ih => simp only [itemBytes, List.map_cons, List.sum_cons, List.length_cons] at ih ⊢; omega
  have hne : ¬ v.length = 0 := fun e => hv (List.length_eq_zero_iff.1 e)
  have he : replData v = putLE 4 v.length ++ itemsData v := by rw [replData, if_neg hne, patchItems_eq]
  have := hl v
  refine ⟨by rw [he]; simp, ?_⟩
  rw [itemsOf, he, if_neg (by simp), List.take_left' (by simp), List.drop_left' (by simp),
    getLE_putLE_of_lt (by omega)]
  exact itemsOfF_all v h

/-! ### The operations for one field -/

theorem Became.mono {fuel : Nat} {tys : List Ty} {L : LSt} {ops : List POp} {r : List Val} {c : Nat → Option Val}
    {fn n : Nat} {P Q : Val → Prop} (h : Became fuel tys L ops r c fn n P) (hpq : ∀ x, P x → Q x) :
    Became fuel tys L ops r c fn n Q := by
  obtain ⟨L', r', c', a, b, p, d⟩ := h
  exact ⟨L', r', c', a, b, hpq _ p, d⟩

section
variable {fuel : Nat} {tys : List Ty} {L : LSt} {r : List Val} {c : Nat → Option Val} {fn : UInt16} {n : Nat}

/-- The operations for a list, or the replacement. -/
theorem list_applied {α : Type} {item : Bytes → Option α} {enc : α → Bytes} (hi : ∀ y, item (enc y) = some y)
    {eqv : α → α → Bool} {E : α → α → Prop} (hE : ∀ x y, eqv x y = true ↔ E x y) (hrefl : ∀ x, E x x)
    {repl : List α → Bytes} (a b : List α) (ha : a.length < 2 ^ 31) (hb : b.length < 2 ^ 31) {P : List α → Val → Prop}
    (hedit : ∀ ops w, SliceEdits item fn (max a.length b.length) a ops w → Became fuel tys L ops r c fn.toNat n (P w))
    (hrepl : Became fuel tys L [⟨fn, PListReplace, -1, repl b⟩] r c fn.toNat n (P b)) :
    ∃ w, EqvLists E w b ∧ Became fuel tys L (diffList fn eqv enc repl a b) r c fn.toNat n (P w) := by
  rw [diffList, orReplace]
  split
  · refine ⟨b, ⟨rfl, fun i x y hx hy => ?_⟩, hrepl⟩
    rw [hx] at hy; rw [Option.some.inj hy]; exact hrefl _
  · obtain ⟨w, h1, h2⟩ := diff_edits hi hE hrefl fn a b ha hb
    exact ⟨w, h2, hedit _ w h1⟩

theorem field_plain (h : PInv tys L r c) {t : STy} (ht : t.plain = true) (hty : tys[fn.toNat]? = some (.scalar t))
    {La Lb : LSt} {a b : Val} (ha : Fld La fn.toNat (.scalar t) a) (hb : Fld Lb fn.toNat (.scalar t) b)
    (hbc : b.Canon ∧ b.HasTy (.scalar t)) (hobj : obj r c fn.toNat = a)
    {ops : List POp} (hd : diffField (.scalar t) La Lb fn.toNat = .ok (some ops))
    (hr : Room r fn.toNat n) (hn : (r.getD fn.toNat .absent).size + b.size ≤ n) :
    Became fuel tys L ops r c fn.toNat n fun x => (Ty.scalar t).Same x b := by
  have hf : UInt16.ofNat fn.toNat = fn := by simp
  have hl : t.isList = false := by cases t <;> first | rfl | simp [STy.plain] at ht
  have hr0 : (r.getD fn.toNat .absent).size ≤ n := by omega
  simp only [Fld, hl, Bool.false_eq_true, if_false] at ha hb
  rw [diffField_plain t ht] at hd
  simp only [ha, hb, Res.ok_bind, hf] at hd
  have hzero : t.Clean t.zero := by cases t <;> simp [STy.plain] at ht <;> simp [STy.Clean, STy.Storable]
  have hspec : b = specScalar t (listIn t b) ∧ t.Clean (listIn t b) := by
    cases b with
    | absent =>
      have : t.isZero t.zero = true := by cases t <;> simp [STy.plain] at ht <;> rfl
      exact ⟨by simp [listIn, specScalar, this], hzero⟩
    | scalar t' v =>
      have := hbc.2
      simp only [Val.HasTy] at this
      subst this
      have := hbc.1
      simp only [Val.Canon] at this
      simp [listIn, specScalar, this]
    | struct _ => have := hbc.2; simp [Val.HasTy] at this
    | structs _ => have := hbc.2; simp [Val.HasTy] at this
  by_cases hs : t.same (listIn t a) (listIn t b) = true
  · simp only [hs, if_true, Res.pure_eq, Res.ok.injEq, Option.some.injEq] at hd
    subst hd
    refine Became.none h hr0 ?_
    rw [hobj]
    exact (t.same_iff _ _ ht).1 hs
  · simp only [hs, Bool.false_eq_true, if_false, Res.pure_eq] at hd
    split at hd
    · rename_i hz
      have hd := Option.some.inj (Res.ok.inj hd)
      subst hd
      refine (clear_applied h hty).mono fun x hx => ?_
      have : listIn t b = listIn t .absent := by
        obtain ⟨h1, h2, _⟩ := hz
        rcases h1 with rfl | rfl
        · simpa [STy.isZero, listIn, STy.zero] using h2
        · simpa [STy.isZero, listIn, STy.zero] using h2
      simp only [Ty.Same, hx, this]
      exact STy.Eqv.refl t _
    · have hd := Option.some.inj (Res.ok.inj hd)
      subst hd
      refine (set_applied h hty ht hspec.2 hr (by rw [← hspec.1]; omega)).mono fun x hx => ?_
      simp only [Ty.Same, hx, ← hspec.1]
      exact STy.Eqv.refl t _

theorem field_scalar (h : PInv tys L r c) {t : STy} (hty : tys[fn.toNat]? = some (.scalar t)) {La Lb : LSt} {a b : Val}
    (ha : Fld La fn.toNat (.scalar t) a) (hb : Fld Lb fn.toNat (.scalar t) b)
    (hbc : t.isList = false → b.Canon ∧ b.HasTy (.scalar t)) (hobj : obj r c fn.toNat = a)
    (hp : (Ty.scalar t).Patchable a b) {ops : List POp} (hd : diffField (.scalar t) La Lb fn.toNat = .ok (some ops))
    (hr : Room r fn.toNat n) (hn : (r.getD fn.toNat .absent).size + b.size ≤ n) (hsm : b.size < 2 ^ 32) :
    Became fuel tys L ops r c fn.toNat n fun x => (Ty.scalar t).Same x b := by
  have hf : UInt16.ofNat fn.toNat = fn := by simp
  have hr0 : (r.getD fn.toNat .absent).size ≤ n := by omega
  cases t
  case lbool =>
    obtain ⟨x, x1, x2, _⟩ := fld_list ha rfl
    obtain ⟨y, y1, y2, _⟩ := fld_list hb rfl
    simp only [diffField, x1, y1, Res.ok_bind, Res.pure_eq, hf] at hd
    have hd := Option.some.inj (Res.ok.inj hd)
    subst hd
    simp only [Ty.Patchable, STy.count, ← x2, ← y2] at hp
    rw [← hobj] at x2
    obtain ⟨w, w1, w2⟩ := list_applied (fuel := fuel) (tys := tys) (L := L) (r := r) (c := c) (fn := fn) (n := n)
      (item := fun d => d.head?.map (· != 0)) (enc := boolData)
      (by intro y; cases y <;> rfl) (eqv := fun p q : Bool => p == q) (E := fun p q => p = q) (by simp) (by simp)
      (repl := fun l => l.map fun p => if p then (1 : UInt8) else 0) (x.getD []) (y.getD []) hp.1 hp.2
      (P := fun w z => listIn .lbool z = w)
      (fun ops w he => edits_applied hty rfl (EditsTo.bools he) h hr hr0 x2.symm)
      (by
        by_cases he : y.getD [] = []
        · rw [he]
          exact (empty_applied h hty).mono fun z hz => by rw [hz]; rfl
        · refine replace_applied h hty rfl hr0 (by simpa using he) ?_
          simp only [STy.replItems, List.map_map, Option.some.injEq]
          conv => rhs; rw [← List.map_id (y.getD [])]
          apply List.map_congr_left
          intro p _; cases p <;> rfl)
    refine w2.mono fun z hz => ?_
    simp only [Ty.Same, STy.Eqv, hz, ← y2]
    exact (eqvLists_eq _ _).1 w1
  case lstr =>
    obtain ⟨x, x1, x2, _⟩ := fld_list ha rfl
    obtain ⟨y, y1, y2, y3, y4⟩ := fld_list hb rfl
    simp only [diffField, x1, y1, Res.ok_bind, Res.pure_eq, hf] at hd
    have hd := Option.some.inj (Res.ok.inj hd)
    subst hd
    simp only [Ty.Patchable, STy.count, ← x2, ← y2] at hp
    rw [← hobj] at x2
    obtain ⟨w, w1, w2⟩ := list_applied (fuel := fuel) (tys := tys) (L := L) (r := r) (c := c) (fn := fn) (n := n)
      (item := some) (enc := id)
      (by intro y; rfl) (eqv := fun p q : Bytes => p == q) (E := fun p q => p = q) (by simp) (by simp)
      (repl := replData) (x.getD []) (y.getD []) hp.1 hp.2
      (P := fun w z => listIn .lstr z = w)
      (fun ops w he => edits_applied hty rfl (EditsTo.strs he) h hr hr0 x2.symm)
      (by
        by_cases he : y.getD [] = []
        · rw [he]
          exact (empty_applied h hty).mono fun z hz => by rw [hz]; rfl
        · have hsz : itemBytes (y.getD []) < 2 ^ 32 := by
            simp only [Fld, STy.isList, if_true] at hb
            rcases hb with ⟨rfl, _⟩ | ⟨v, rfl, _⟩
            · simp [y4 rfl] at he
            · simp only [Val.size, scalarSize] at hsm
              have : y.getD [] = v := y2.trans (by simp [listIn])
              rw [this]; omega
          obtain ⟨q1, q2⟩ := itemsOf_replData _ he hsz
          exact replace_applied h hty rfl hr0 q1 q2)
    refine w2.mono fun z hz => ?_
    simp only [Ty.Same, STy.Eqv, hz, ← y2]
    exact (eqvLists_eq _ _).1 w1
  case lbytes =>
    obtain ⟨x, x1, x2, _⟩ := fld_list ha rfl
    obtain ⟨y, y1, y2, y3, y4⟩ := fld_list hb rfl
    simp only [diffField, x1, y1, Res.ok_bind, Res.pure_eq, hf] at hd
    cases x with
    | none => simp at hd
    | some x =>
    cases y with
    | none => simp at hd
    | some y =>
    simp only at hd
    have hd := Option.some.inj (Res.ok.inj hd)
    subst hd
    simp only [Ty.Patchable, STy.count, ← x2, ← y2] at hp
    rw [← hobj] at x2
    simp only [Option.getD_some] at x2 y2 hp
    obtain ⟨w, w1, w2⟩ := list_applied (fuel := fuel) (tys := tys) (L := L) (r := r) (c := c) (fn := fn) (n := n)
      (item := some) (enc := id)
      (by intro y; rfl) (eqv := fun p q : Bytes => p == q) (E := fun p q => p = q) (by simp) (by simp)
      (repl := replData) x y hp.1 hp.2
      (P := fun w z => listIn .lbytes z = w)
      (fun ops w he => edits_applied hty rfl (EditsTo.bytes he) h hr hr0 x2.symm)
      (by
        by_cases he : y = []
        · rw [he]
          exact (empty_applied h hty).mono fun z hz => by rw [hz]; rfl
        · have hsz : itemBytes y < 2 ^ 32 := by
            simp only [Fld, STy.isList, if_true] at hb
            rcases hb with ⟨rfl, _⟩ | ⟨v, rfl, _⟩
            · simp at y4
            · simp only [Val.size, scalarSize] at hsm
              have : y = v := y2.trans (by simp [listIn])
              rw [this]; omega
          obtain ⟨q1, q2⟩ := itemsOf_replData _ he hsz
          exact replace_applied h hty rfl hr0 q1 q2)
    refine w2.mono fun z hz => ?_
    simp only [Ty.Same, STy.Eqv, hz, ← y2]
    exact (eqvLists_eq _ _).1 w1
  case lnum k =>
    obtain ⟨x, x1, x2, _⟩ := fld_list ha rfl
    obtain ⟨y, y1, y2, y3, y4⟩ := fld_list hb rfl
    simp only [diffField, x1, y1, Res.ok_bind, Res.pure_eq, hf] at hd
    have hd := Option.some.inj (Res.ok.inj hd)
    subst hd
    simp only [Ty.Patchable, STy.count, ← x2, ← y2] at hp
    rw [← hobj] at x2
    have hbound : ∀ w : List k.Val, w.length ≤ max (x.getD []).length (y.getD []).length →
        (specScalar (.lnum k) w).size ≤ n := by
      intro w hw
      by_cases hw0 : w = []
      · simp [hw0, specScalar, STy.isZero, Val.size]
      · have hpos := List.length_pos_iff.2 hw0
        have hsz : (specScalar (.lnum k) w).size = 8 + w.length * k.size := by
          have : STy.isZero (.lnum k) w = false := by cases w <;> simp [STy.isZero] at hw0 ⊢
          simp [specScalar, this, Val.size, scalarSize]
        rw [hsz]
        by_cases hle : w.length ≤ (x.getD []).length
        · obtain ⟨v, a1, a2, _⟩ := h.rawItems hty
          have hv : v = x.getD [] := by rw [← a2]; exact x2.symm
          have : STy.isZero (.lnum k) v = false := by
            cases hv' : v with
            | nil => rw [← hv, hv'] at hle; simp at hle; exact absurd hle hw0
            | cons => simp [STy.isZero]
          rw [a1] at hn
          have hle2 : w.length ≤ v.length := by rw [hv]; exact hle
          simp only [specScalar, this, Bool.false_eq_true, if_false, Val.size, scalarSize] at hn
          have := Nat.mul_le_mul_right k.size hle2
          omega
        · have hle' : w.length ≤ (y.getD []).length := by omega
          simp only [Fld, STy.isList, if_true] at hb
          rcases hb with ⟨rfl, _⟩ | ⟨v, rfl, _⟩
          · simp [y4 rfl] at hle'; exact absurd hle' hw0
          · simp only [Val.size, scalarSize] at hn
            have : y.getD [] = v := y2.trans (by simp [listIn])
            have hle2 : w.length ≤ v.length := by rw [← this]; exact hle'
            have := Nat.mul_le_mul_right k.size hle2
            omega
    obtain ⟨w, w1, w2⟩ := list_applied (fuel := fuel) (tys := tys) (L := L) (r := r) (c := c) (fn := fn) (n := n)
      (item := fun d => if k.size ≤ d.length then some (k.ofBits (getLE (d.take k.size))) else none)
      (enc := k.patchData)
      (by
        intro y
        simp only [NTy.patchData, putLE_length, Nat.le_refl, if_true]
        rw [List.take_of_length_le (by simp), getLE_putLE_of_lt (k.bits_lt y), k.ofBits_bits])
      (eqv := k.same) (E := k.Eqv) k.same_iff (NTy.Eqv.refl k)
      (repl := fun l => (l.map k.patchData).flatten) (x.getD []) (y.getD []) hp.1 hp.2
      (P := fun w z => listIn (.lnum k) z = w)
      (fun ops w he => edits_applied hty rfl (EditsTo.nums k he hbound) h hr hr0 x2.symm)
      (by
        by_cases he : y.getD [] = []
        · rw [he]
          exact (empty_applied h hty).mono fun z hz => by rw [hz]; rfl
        · exact numbers_applied h hty hr (hbound _ (by omega)) he)
    refine w2.mono fun z hz => ?_
    simp only [Ty.Same, STy.Eqv, hz, ← y2]
    exact w1
  case any => simp [diffField] at hd
  case lany => simp [diffField] at hd
  case map => simp [diffField] at hd
  all_goals exact field_plain h rfl hty ha hb (hbc rfl) hobj hd hr hn

theorem field_applied (h : PInv tys L r c) {ty : Ty} (hty : tys[fn.toNat]? = some ty) {La Lb : LSt} {a b : Val}
    (ha : Fld La fn.toNat ty a) (hb : Fld Lb fn.toNat ty b)
    (hbc : (∀ t, ty = .scalar t → t.isList = false) → b.Canon ∧ b.HasTy ty) (hobj : obj r c fn.toNat = a)
    (hp : ty.Patchable a b) {ops : List POp} (hd : diffField ty La Lb fn.toNat = .ok (some ops))
    (hr : Room r fn.toNat n) (hn : (r.getD fn.toNat .absent).size + b.size ≤ n) (hsm : b.size < 2 ^ 32) :
    Became fuel tys L ops r c fn.toNat n fun x => ty.Same x b := by
  have hf : UInt16.ofNat fn.toNat = fn := by simp
  have hr0 : (r.getD fn.toNat .absent).size ≤ n := by omega
  have hsame : ty.Same a b → Became fuel tys L ops r c fn.toNat n fun x => ty.Same x b := by
    intro hs
    have := ((diffField_nil ty La Lb fn.toNat a b ha hb).1 ops hd).2 hs
    subst this
    exact Became.none h hr0 (by rw [hobj]; exact hs)
  cases ty with
  | scalar t => exact field_scalar h hty ha hb (fun hl => hbc (fun t' e => by cases e; exact hl)) hobj hp hd hr hn hsm
  | struct ctys =>
    have hbc := hbc (fun t e => by simp at e)
    have ha' := ha
    have hb' := hb
    simp only [Fld] at ha' hb'
    rcases ha' with ⟨rfl, ha'⟩ | ⟨va, x, rfl, ha', hx⟩ <;> rcases hb' with ⟨rfl, hb'⟩ | ⟨vb, y, rfl, hb', hy⟩
    · exact hsame (by simp [Ty.Same])
    · obtain ⟨d, e1, e2⟩ := child_bytes hy
      simp only [diffField, ha', hb', Res.ok_bind, e1, hf] at hd
      have hd := Option.some.inj (Res.ok.inj hd)
      subst hd
      refine (struct_applied h hty e2 hbc.1 (by simpa [Val.HasTy] using hbc.2) hr (by omega)).mono fun z hz => ?_
      rw [hz]; exact Ty.Same.refl _ _
    · simp only [diffField, ha', hb', Res.ok_bind, hf] at hd
      have hd := Option.some.inj (Res.ok.inj hd)
      subst hd
      refine (clear_applied h hty).mono fun z hz => ?_
      rw [hz]; exact Ty.Same.refl _ _
    · simp only [Ty.Patchable, reduceCtorEq, false_or] at hp
      exact hsame hp
  | structs ctys =>
    have hbc := hbc (fun t e => by simp at e)
    have ha' := ha
    have hb' := hb
    simp only [Fld] at ha' hb'
    rcases ha' with ⟨rfl, ha'⟩ | ⟨va, xs, rfl, hva, ha', hx⟩ <;> rcases hb' with ⟨rfl, hb'⟩ | ⟨vb, ys, rfl, hvb, hb', hy⟩
    · exact hsame (by simp [Ty.Same, itemsIn])
    · obtain ⟨ds, e1, e2, e3⟩ := children_bytes hy
      have hly := children_length hy
      have hpos := List.length_pos_iff.2 hvb
      simp only [diffField, ha', hb', Res.ok_bind, e1, hf, Option.getD_none, Option.getD_some, patchItemOps,
        List.length_nil, List.nil_append, orReplace, List.drop_zero, List.length_append, insOps_length, remOps_length] at hd
      rw [if_pos (by omega)] at hd
      have hd := Option.some.inj (Res.ok.inj hd)
      subst hd
      have hru : r.getD fn.toNat .absent = .absent := by
        have := h.structs_uncached hty
        simpa [obj, this] using hobj
      refine (structs_applied h hty hru e2 e3 hbc.1 (by simpa [Val.HasTy] using hbc.2) hr (by omega)).mono fun z hz => ?_
      rw [hz]; exact Ty.Same.refl _ _
    · have hlx := children_length hx
      have hpos := List.length_pos_iff.2 hva
      simp only [diffField, ha', hb', Res.ok_bind, mapRes, hf, Option.getD_none, Option.getD_some] at hd
      have hnil : ∀ i, patchItemOps fn (fun p q => diffFields ctys (LSt.ofSt p) (LSt.ofSt q) 0) i xs [] = .ok (some []) := by
        intro i; cases xs <;> simp [patchItemOps]
      simp only [hnil, Res.ok_bind, List.drop_nil, insOps, List.nil_append, orReplace, remOps_length, List.length_nil,
        List.append_nil, List.length_append] at hd
      rw [if_pos (by omega)] at hd
      have hd := Option.some.inj (Res.ok.inj hd)
      subst hd
      refine (empty_applied h hty).mono fun z hz => ?_
      rw [hz]; exact Ty.Same.refl _ _
    · simp only [Ty.Patchable, reduceCtorEq, false_or] at hp
      exact hsame hp

end

end Claw
