import Verif.Lemmas.ApplyDiff
import Verif.Props.Apply
import Verif.Props.Patch

/-!
# C21: applying a diff reproduces the target

`Ty.Patchable` (Spec/Patch) says which pairs of field values the theorem is about: all scalars, strings, byte
slices and lists of them; a struct or a list of structs only as a whole (it is there on one side only, or is equal).
-/

namespace Claw

set_option linter.unusedSimpArgs false

theorem sizes_le_add : ∀ (r a b : List Val), r.length = a.length → r.length = b.length →
    (∀ i, (r.getD i .absent).size ≤ (a.getD i .absent).size + (b.getD i .absent).size) → sizes r ≤ sizes a + sizes b
  | [], _, _, _, _, _ => by simp [sizes]
  | x :: r, [], _, h, _, _ => by simp at h
  | x :: r, _ :: _, [], _, h, _ => by simp at h
  | x :: r, y :: a, z :: b, h1, h2, h => by
    have h0 := h 0
    simp at h0
    have := sizes_le_add r a b (by simpa using h1) (by simpa using h2) (fun i => by simpa using h (i + 1))
    simp only [sizes]; omega

/-- Between the operations of field `k - 1` and those of field `k`. -/
structure DiffInv (tys : List Ty) (A : List Val) (cur B : List Val) (k : Nat) (L : LSt) (r : List Val)
    (c : Nat → Option Val) : Prop where
  pinv : PInv tys L r c
  done : ∀ j ty, j < k → tys[j]? = some ty → ty.Same (obj r c j) (B.getD j .absent)
  todo : ∀ j, k ≤ j → obj r c j = cur.getD j .absent ∧ r.getD j .absent = A.getD j .absent
  size : ∀ j, (r.getD j .absent).size ≤ (A.getD j .absent).size + (B.getD j .absent).size

theorem fields_applied {tys : List Ty} {La Lb : LSt} {A cur B : List Val} (hlen : tys.length ≤ 65536)
    (hA : A.length = tys.length) (hB : B.length = tys.length)
    (ha : ∀ i ty, tys[i]? = some ty → Fld La i ty (cur.getD i .absent))
    (hb : ∀ i ty, tys[i]? = some ty → Fld Lb i ty (B.getD i .absent))
    (hbc : ∀ i ty, tys[i]? = some ty → (∀ t, ty = .scalar t → t.isList = false) →
      (B.getD i .absent).Canon ∧ (B.getD i .absent).HasTy ty)
    (hp : ∀ i (ty : Ty), tys[i]? = some ty → ty.Patchable (cur.getD i .absent) (B.getD i .absent))
    (hs : 8 + sizes A + sizes B < 2 ^ 32) (fuel : Nat) : ∀ (rest : List Ty) (k : Nat) (L : LSt) (r : List Val)
      (c : Nat → Option Val) (ops : List POp), rest = tys.drop k → k ≤ tys.length → DiffInv tys A cur B k L r c →
      diffFields rest La Lb k = .ok (some ops) →
      ∃ L' r' c', AllApplied (applyOp fuel tys) L ops L' ∧ DiffInv tys A cur B tys.length L' r' c'
  | [], k, L, r, c, ops, hk, hkt, h, hd => by
    simp [diffFields] at hd
    subst hd
    have hk : tys.length ≤ k := by have := congrArg List.length hk; simp at this; omega
    refine ⟨L, r, c, .nil, h.pinv, fun j ty _ hj => h.done j ty ?_ hj, fun j hj => ?_, h.size⟩
    · have := (List.getElem?_eq_some_iff.1 hj).1; omega
    · by_cases hkj : k ≤ j
      · exact h.todo j hkj
      · omega
  | ty :: rest, k, L, r, c, ops, hk, hkt, h, hd => by
    have hkl : k < tys.length := by have := congrArg List.length hk; simp at this; omega
    have hty : tys[k]? = some ty := by
      have := congrArg (fun l => l[0]?) hk
      simpa [List.getElem?_drop] using this.symm
    have hrest : rest = tys.drop (k + 1) := by
      have := congrArg List.tail hk
      simpa [List.tail_drop] using this
    rw [diffFields] at hd
    obtain ⟨o, e1, e⟩ := Res.bind_eq_ok.1 hd
    cases o with
    | none => simp at e
    | some o1 =>
    obtain ⟨o, e2, e⟩ := Res.bind_eq_ok.1 e
    cases o with
    | none => simp at e
    | some o2 =>
    simp only [Res.pure_eq, Res.ok.injEq, Option.some.injEq] at e
    subst e
    have hfn : (UInt16.ofNat k).toNat = k := by simp; omega
    have hrl : r.length = tys.length := h.pinv.sch
    have hroom : Room r (UInt16.ofNat k).toNat ((A.getD k .absent).size + (B.getD k .absent).size) := by
      intro x hx
      rw [hfn]
      refine Nat.lt_of_le_of_lt ?_ hs
      rw [Nat.add_assoc]
      refine Nat.add_le_add_left (sizes_le_add _ _ _ (by simp; omega) (by simp; omega) fun i => ?_) 8
      by_cases hi : i = k
      · subst hi; rw [PInv.getD_set_self (by omega)]; exact hx
      · rw [PInv.getD_set_ne hi]; exact h.size i
    have hB1 := sizes_ge B k
    have := field_applied (fuel := fuel) (fn := UInt16.ofNat k) (n := (A.getD k .absent).size + (B.getD k .absent).size)
      (La := La) (Lb := Lb) (a := cur.getD k .absent) (b := B.getD k .absent) (ops := o1) h.pinv (by rw [hfn]; exact hty)
      (by rw [hfn]; exact ha k ty hty) (by rw [hfn]; exact hb k ty hty) (hbc k ty hty) (by rw [hfn]; exact (h.todo k (by omega)).1)
      (hp k ty hty) (by rw [hfn]; exact e1) hroom (by rw [hfn, (h.todo k (by omega)).2]; omega) (by omega)
    rw [hfn] at this
    obtain ⟨L1, r1, c1, f1, f2, f3, f4, f5, f6⟩ := this
    obtain ⟨L2, r2, c2, g1, g2⟩ := fields_applied hlen hA hB ha hb hbc hp hs fuel rest (k + 1) L1 r1 c1 o2 hrest hkl
      ⟨f2, fun j ty' hj hty' => by
        by_cases hjk : j = k
        · subst hjk; rw [hty] at hty'; rw [← Option.some.inj hty']; exact f3
        · rw [f4 j hjk]; exact h.done j ty' (by omega) hty', fun j hj => by
        rw [f4 j (by omega), f5 j (by omega)]; exact h.todo j (by omega), fun j => by
        by_cases hjk : j = k
        · subst hjk; exact f6
        · rw [f5 j hjk]; exact h.size j⟩ e2
    exact ⟨L2, r2, c2, f1.append g1, g2⟩

/-- The getters of all fields give a record that is equal to `B`. -/
def ShowsSame (tys : List Ty) (L : LSt) (B : List Val) : Prop :=
  ∃ vs : List Val, (∀ i ty, tys[i]? = some ty → Fld L i ty (vs.getD i .absent)) ∧ SameFields tys vs B

theorem sameFields_iff : ∀ (tys : List Ty) (vs ws : List Val), SameFields tys vs ws ↔
    ∀ i (ty : Ty), tys[i]? = some ty → ty.Same (vs.getD i .absent) (ws.getD i .absent)
  | [], vs, ws => by simp [SameFields]
  | t :: tys, vs, ws => by
    have hh : ∀ l : List Val, l.headD .absent = l.getD 0 .absent := by intro l; cases l <;> rfl
    have ht : ∀ (l : List Val) i, l.tail.getD i .absent = l.getD (i + 1) .absent := by intro l i; cases l <;> rfl
    rw [SameFields, sameFields_iff tys]
    simp only [hh, ht]
    constructor
    · rintro ⟨h1, h2⟩ i ty hi
      cases i with
      | zero => simp at hi; subst hi; exact h1
      | succ i => exact h2 i ty (by simpa using hi)
    · intro h
      exact ⟨h 0 t rfl, fun i ty hi => h (i + 1) ty (by simpa using hi)⟩

theorem diffableFields_get : ∀ (tys : List Ty) (vs ws : List Val), DiffableFields tys vs ws →
    ∀ i (ty : Ty), tys[i]? = some ty → ty.Diffable (vs.getD i .absent) (ws.getD i .absent)
  | [], vs, ws, _ => by simp
  | t :: tys, vs, ws, h => by
    have hh : ∀ l : List Val, l.headD .absent = l.getD 0 .absent := by intro l; cases l <;> rfl
    have ht : ∀ (l : List Val) i, l.tail.getD i .absent = l.getD (i + 1) .absent := by intro l i; cases l <;> rfl
    rw [DiffableFields] at h
    have h2 := diffableFields_get tys _ _ h.2
    simp only [hh, ht] at h h2
    intro i ty hi
    cases i with
    | zero => simp at hi; subst hi; exact h.1
    | succ i => exact h2 i ty (by simpa using hi)

theorem current_length (A : LAbs) : A.current.length = A.fields.length := by simp [LAbs.current]

/-- A field that is not a list is in the record. -/
theorem reached_canon {tys : List Ty} {L : LSt} {A : LAbs} (h : Reached tys L A) (i : Nat) (ty : Ty)
    (hi : tys[i]? = some ty) (hl : ∀ t, ty = .scalar t → t.isList = false) :
    (A.current.getD i .absent).Canon ∧ (A.current.getD i .absent).HasTy ty := by
  obtain ⟨hv, hlen, hty⟩ := h.inv
  have hlt : i < A.fields.length := by rw [hlen]; exact (List.getElem?_eq_some_iff.1 hi).1
  rw [current_getD A i hlt]
  cases hs : A.shown i with
  | none => exact ⟨hv.canon.get i, hty.get i ty hi⟩
  | some sh =>
    obtain ⟨_, id, t, v, d, _, e2, e3, _⟩ := hv.touched i sh hs
    have : ty = .scalar t := by
      simp only [listsOf, hi] at e2
      split at e2
      · rename_i t' ht
        split at e2
        · rw [Option.some.inj ht, Option.some.inj e2]
        · simp at e2
      · simp at e2
    rw [hl t this] at e3; simp at e3

/-- **C21** Whenever `Diff` returns a patch for two structs in any state a client can bring them into, applying it to
the first returns no error, and all fields of the first are equal to those of the second then. What is missing from
the full claim is in the hypotheses: a struct or list of structs that is there on both sides must not have to be
changed (`C21_struct_growth_corrupts`, `C21_struct_item_lost`), at most 10000 operations (`C21_patch_too_large`), the lists
of numbers of the first struct are written (C24); and it is about what the getters show: for the bytes see
`C24_set_not_written`. -/
theorem C21_apply_diff_partial {tys : List Ty} {La Lb : LSt} {A B : LAbs} (ha : Reached tys La A) (hb : Reached tys Lb B)
    (hn : NumbersSettled A)
    (hp : ∀ i (ty : Ty), tys[i]? = some ty → ty.Patchable (A.current.getD i .absent) (B.current.getD i .absent))
    (hs : 8 + sizes A.fields + sizes B.current < 2 ^ 32)
    {p : Patch} (hd : diffPatch tys La Lb = .ok (some p)) (hmax : p.ops.length ≤ 10000) :
    ∃ L', applyPatch tys La p = .ok (L', false) ∧ ShowsSame tys L' B.current := by
  obtain ⟨hva, hla, _⟩ := ha.inv
  obtain ⟨hvb, hlb, _⟩ := hb.inv
  obtain ⟨c, h1, h2, _⟩ := ha.pinv hn
  obtain ⟨o, e1, e⟩ := Res.bind_eq_ok.1 hd
  cases o with
  | none => simp at e
  | some ops =>
  simp only [Res.pure_eq, Res.ok.injEq, Option.some.injEq] at e
  subst e
  have hlen : tys.length ≤ 65536 := by rw [← hla]; exact hva.max
  obtain ⟨L', r', c', g1, g2⟩ := fields_applied hlen hla (by rw [current_length]; exact hlb) (reached_fld ha) (reached_fld hb)
    (reached_canon hb) hp hs maxPatchDepth tys 0 La A.fields c ops (by simp) (by omega)
    ⟨h1, by simp, fun j _ => ⟨h2 j, rfl⟩, fun j => by omega⟩ e1
  refine ⟨L', (C23_within_limit tys La L' ops hmax).2 g1, ?_⟩
  have hget : ∀ i ty, tys[i]? = some ty → ((List.range tys.length).map (obj r' c')).getD i .absent = obj r' c' i := by
    intro i ty hi
    have := (List.getElem?_eq_some_iff.1 hi).1
    simp [List.getD_eq_getElem?_getD, this]
  refine ⟨(List.range tys.length).map (obj r' c'), fun i ty hi => ?_, (sameFields_iff _ _ _).2 fun i ty hi => ?_⟩
  · rw [hget i ty hi]; exact g2.pinv.fld i ty hi
  · rw [hget i ty hi]; exact g2.done i ty (List.getElem?_eq_some_iff.1 hi).1 hi

/-- For one field `Diff` does return operations. -/
theorem diffField_returns (ty : Ty) (La Lb : LSt) (i : Nat) (a b : Val) (ha : Fld La i ty a) (hb : Fld Lb i ty b)
    (hd : ty.Diffable a b) (hp : ty.Patchable a b) : ∃ ops, diffField ty La Lb i = .ok (some ops) := by
  have hsame : ty.Same a b → ∃ ops, diffField ty La Lb i = .ok (some ops) :=
    fun hs => ⟨[], (diffField_nil ty La Lb i a b ha hb).2 hd hs⟩
  cases ty with
  | scalar t =>
    by_cases hpl : t.plain = true
    · have hl : t.isList = false := by cases t <;> first | rfl | simp [STy.plain] at hpl
      simp only [Fld, hl, Bool.false_eq_true, if_false] at ha hb
      rw [diffField_plain t hpl]
      simp only [ha, hb, Res.ok_bind]
      split
      · exact ⟨_, rfl⟩
      · split <;> exact ⟨_, rfl⟩
    · cases t <;> simp only [STy.plain, not_true_eq_false] at hpl
      case any => simp [Ty.Diffable] at hd
      case lany => simp [Ty.Diffable] at hd
      case map => simp [Ty.Diffable] at hd
      case lbytes =>
        obtain ⟨x, x1, x2, x3, x4⟩ := fld_list ha rfl
        obtain ⟨y, y1, y2, y3, y4⟩ := fld_list hb rfl
        simp only [diffField, x1, y1, Res.ok_bind]
        simp only [Ty.Diffable] at hd
        cases x with
        | none => exact absurd (x3 rfl) hd.1
        | some x =>
          cases y with
          | none => exact absurd (y3 rfl) hd.2
          | some y => exact ⟨_, rfl⟩
      all_goals
        obtain ⟨x, x1, _⟩ := fld_list ha rfl
        obtain ⟨y, y1, _⟩ := fld_list hb rfl
        simp only [diffField, x1, y1, Res.ok_bind]
        exact ⟨_, rfl⟩
  | struct ctys =>
    have ha' := ha
    have hb' := hb
    simp only [Fld] at ha' hb'
    rcases ha' with ⟨rfl, ha'⟩ | ⟨va, x, rfl, ha', hx⟩ <;> rcases hb' with ⟨rfl, hb'⟩ | ⟨vb, y, rfl, hb', hy⟩
    · exact hsame (by simp [Ty.Same])
    · obtain ⟨d, e1, _⟩ := child_bytes hy
      simp only [diffField, ha', hb', Res.ok_bind, e1]
      exact ⟨_, rfl⟩
    · simp only [diffField, ha', hb', Res.ok_bind]
      exact ⟨_, rfl⟩
    · simp only [Ty.Patchable, reduceCtorEq, false_or] at hp
      exact hsame hp
  | structs ctys =>
    have ha' := ha
    have hb' := hb
    simp only [Fld] at ha' hb'
    rcases ha' with ⟨rfl, ha'⟩ | ⟨va, xs, rfl, hva, ha', hx⟩ <;> rcases hb' with ⟨rfl, hb'⟩ | ⟨vb, ys, rfl, hvb, hb', hy⟩
    · exact hsame (by simp [Ty.Same, itemsIn])
    · obtain ⟨ds, e1, _⟩ := children_bytes hy
      simp only [diffField, ha', hb', Res.ok_bind, Option.getD_none, Option.getD_some, patchItemOps, e1]
      exact ⟨_, rfl⟩
    · have hnil : ∀ i f, patchItemOps f (fun p q => diffFields ctys (LSt.ofSt p) (LSt.ofSt q) 0) i xs [] = .ok (some []) := by
        intro i f; cases xs <;> simp [patchItemOps]
      simp only [diffField, ha', hb', Res.ok_bind, Option.getD_none, Option.getD_some, hnil, mapRes]
      exact ⟨_, rfl⟩
    · simp only [Ty.Patchable, reduceCtorEq, false_or] at hp
      exact hsame hp

theorem diffFields_return {La Lb : LSt} {cur B : List Val} : ∀ (rest : List Ty) (k : Nat),
    (∀ j (ty : Ty), rest[j]? = some ty → Fld La (k + j) ty (cur.getD (k + j) .absent) ∧
      Fld Lb (k + j) ty (B.getD (k + j) .absent) ∧ ty.Diffable (cur.getD (k + j) .absent) (B.getD (k + j) .absent) ∧
      ty.Patchable (cur.getD (k + j) .absent) (B.getD (k + j) .absent)) →
    ∃ ops, diffFields rest La Lb k = .ok (some ops)
  | [], _, _ => ⟨[], rfl⟩
  | ty :: rest, k, h => by
    obtain ⟨h1, h2, h3, h4⟩ := h 0 ty rfl
    obtain ⟨o1, e1⟩ := diffField_returns ty La Lb k _ _ h1 h2 h3 h4
    obtain ⟨o2, e2⟩ := diffFields_return rest (k + 1) (fun j ty' hj => by
      rw [show k + 1 + j = k + (j + 1) by omega]; exact h (j + 1) ty' (by simpa using hj))
    exact ⟨o1 ++ o2, by simp [diffFields, e1, e2]⟩

/-- C21, both halves: for such structs `Diff` does return a patch, and if it has at most 10000 operations it is applied
without an error and makes the first struct equal to the second; a further `Diff` finds nothing. -/
theorem C21_diff_then_apply_partial {tys : List Ty} {La Lb : LSt} {A B : LAbs} (ha : Reached tys La A)
    (hb : Reached tys Lb B) (hn : NumbersSettled A) (hdf : DiffableFields tys A.current B.current)
    (hp : ∀ i (ty : Ty), tys[i]? = some ty → ty.Patchable (A.current.getD i .absent) (B.current.getD i .absent))
    (hs : 8 + sizes A.fields + sizes B.current < 2 ^ 32) :
    ∃ p, diffPatch tys La Lb = .ok (some p) ∧ (p.ops.length ≤ 10000 →
      ∃ L', applyPatch tys La p = .ok (L', false) ∧ ShowsSame tys L' B.current ∧
        ∀ q, diffPatch tys L' Lb = .ok (some q) → q.ops = []) := by
  obtain ⟨ops, e⟩ := diffFields_return (La := La) (Lb := Lb) (cur := A.current) (B := B.current) tys 0 (fun j ty hj => by
    rw [Nat.zero_add]
    exact ⟨reached_fld ha j ty hj, reached_fld hb j ty hj, diffableFields_get tys _ _ hdf j ty hj, hp j ty hj⟩)
  have hd : diffPatch tys La Lb = .ok (some ⟨1, ops⟩) := by simp [diffPatch, e]
  refine ⟨_, hd, fun hmax => ?_⟩
  obtain ⟨L', h1, vs, h2, h3⟩ := C21_apply_diff_partial ha hb hn hp hs hd hmax
  refine ⟨L', h1, ⟨vs, h2, h3⟩, ?_⟩
  intro q hq
  obtain ⟨o, e1, e⟩ := Res.bind_eq_ok.1 hq
  cases o with
  | none => simp at e
  | some ops' =>
    simp only [Res.pure_eq, Res.ok.injEq, Option.some.injEq] at e
    subst e
    exact ((diffFields_nil tys L' Lb 0 vs B.current
      (fun j ty hj => by rw [Nat.zero_add]; exact h2 j ty hj)
      (fun j ty hj => by rw [Nat.zero_add]; exact reached_fld hb j ty hj)).1 ops' e1).2 h3

/-- A fresh struct in which a client has put other strings and numbers, still unwritten. -/
def targetProg : List LOp :=
  [.edit 0 .lstr (fun _ => some [[98], [98, 98, 98, 98], [99, 99, 99, 99]]),
   .edit 1 (.lnum .u16) (fun _ => some [300])]

def targetAbs : LAbs := LAbs.steps ⟨List.replicate 3 .absent, fun _ => none⟩ targetProg

theorem targetAbs_eq : targetAbs.fields = [.absent, .absent, .absent] ∧
    targetAbs.current = [.scalar .lstr [[98], [98, 98, 98, 98], [99, 99, 99, 99]], .scalar (.lnum .u16) [300], .absent] := by
  refine ⟨?_, ?_⟩
  all_goals
    simp [targetAbs, targetProg, LAbs.steps, LAbs.step, LAbs.setShown, LAbs.touch, LAbs.current, List.replicate,
      List.mapIdx_cons, listIn, STy.zero]

theorem target_demo : ∃ L, Reached editTys L targetAbs := by
  obtain ⟨s, e, _⟩ := new_rep 3
  have hty : ListsTyped (listsOf editTys) (List.replicate 3 .absent) := by
    intro fn t _; left; simp; rcases fn with _ | _ | _ | _ <;> rfl
  obtain ⟨hi, _⟩ := begins_inv (.created e) (by decide) hty
  have hf : LFits (listsOf editTys) ⟨List.replicate 3 .absent, fun _ => none⟩ targetProg := by
    simp only [targetProg, LFits]
    refine ⟨⟨by decide, rfl, rfl, _, rfl, ?_⟩, ⟨by decide, rfl, rfl, _, rfl, ?_⟩, trivial⟩
    · simp [STy.Clean, STy.Storable]; decide
    · simp [STy.Clean, STy.Storable]
  obtain ⟨L, e1, _⟩ := lops_inv targetProg hi hf
  refine ⟨L, .mk (by decide) (.created e) hty hf e1 ?_⟩
  show FieldsHaveTy targetAbs.fields editTys
  rw [targetAbs_eq.1]
  simp [editTys, FieldsHaveTy, Val.HasTy, ItemsHaveTy]

theorem editAbs_current : editAbs.current = editAbs.fields := by
  simp [LAbs.current, editAbs_eq.1, editAbs_eq.2.1, editAbs_eq.2.2.1, editAbs_eq.2.2.2 2 (by omega), List.mapIdx_cons]

/-- The hypotheses hold for them, in the direction that changes two lists and removes a list of structs. -/
example : DiffableFields editTys editAbs.current targetAbs.current ∧
    (∀ i (ty : Ty), editTys[i]? = some ty →
      ty.Patchable (editAbs.current.getD i .absent) (targetAbs.current.getD i .absent)) ∧
    8 + sizes editAbs.fields + sizes targetAbs.current < 2 ^ 32 := by
  rw [editAbs_current, editAbs_eq.1, targetAbs_eq.2]
  refine ⟨?_, ?_, ?_⟩
  · simp [DiffableFields, editTys, Ty.Diffable, itemsIn]
  · intro i ty hi
    rcases i with _ | _ | _ | i
    · simp [editTys] at hi; subst hi; simp [Ty.Patchable, STy.count, listIn]
    · simp [editTys] at hi; subst hi; simp [Ty.Patchable, STy.count, listIn]
    · simp [editTys] at hi; subst hi; simp [Ty.Patchable]
    · simp [editTys] at hi
  · simp [sizes, Val.size, itemSizes, scalarSize, itemBytes, NTy.size]

/-- Diff `a` and `b`, apply the patch to `a`: the marshalled `a`, result and `b`, and whether `Apply` failed. -/
def diffApply (tys : List Ty) (m : Nat) (pa pb : List Op) : Res (Option (Bytes × Bytes × Bytes × Bool)) := do
  let a ← run m pa
  let b ← run m pb
  match ← diffPatch tys (LSt.ofSt a) (LSt.ofSt b) with
  | none => return none
  | some p =>
    let (L, failed) ← applyPatch tys (LSt.ofSt a) p
    let (x, _) ← a.marshal
    let (y, _) ← L.marshal
    let (z, _) ← b.marshal
    return some (x, y, z, failed)

/-- C21 fails for a nested struct that is there on both sides, if it has to grow: the patch is applied without an
error, but the result is a corrupt message. The size in the header of the nested struct has changed, its field is
missing, and the parent has not grown. Reading that field of the marshalled result is a panic. -/
theorem C21_struct_growth_corrupts : ∃ x y z s, diffApply [.struct [.scalar .u8, .scalar .u16]] 1
      [.nest 0 2 [.set 0 .u8 1]] [.nest 0 2 [.set 0 .u8 1, .set 1 .u16 2]] = .ok (some (x, y, z, false)) ∧
    y.length = x.length ∧ x.length < z.length ∧
    (do let f ← St.new 1; return f.unmarshal y []) = .ok (some s) ∧ getNestedStruct s 0 2 = .panic := by
  refine ⟨[0, 0, 14, 24, 0, 0, 0, 0, 0, 0, 14, 16, 0, 0, 0, 0, 0, 0, 6, 1, 0, 0, 0, 0],
    [0, 0, 14, 24, 0, 0, 0, 0, 0, 0, 14, 24, 0, 0, 0, 0, 0, 0, 6, 1, 0, 0, 0, 0],
    [0, 0, 14, 32, 0, 0, 0, 0, 0, 0, 14, 24, 0, 0, 0, 0, 0, 0, 6, 1, 0, 0, 0, 0, 1, 0, 7, 2, 0, 0, 0, 0], _,
    by decide +kernel, by decide, by decide, rfl, by decide +kernel⟩

/-- The same for an item of a list of structs: here the item is gone when the result is decoded. -/
theorem C21_struct_item_lost : ∃ x y z s, diffApply [.structs [.scalar .u8, .scalar .u16]] 1
      [.nestList 0 2 [[.set 0 .u8 1]]] [.nestList 0 2 [[.set 0 .u8 1, .set 1 .u16 2]]] = .ok (some (x, y, z, false)) ∧
    y.length = x.length ∧ x.length < z.length ∧
    (do let f ← St.new 1; return f.unmarshal y []) = .ok (some s) ∧ getListStructs s 0 2 = .ok (some []) := by
  refine ⟨[0, 0, 14, 32, 0, 0, 0, 0, 0, 0, 54, 24, 0, 0, 0, 0, 0, 0, 14, 16, 0, 0, 0, 0, 0, 0, 6, 1, 0, 0, 0, 0],
    [0, 0, 14, 32, 0, 0, 0, 0, 0, 0, 54, 24, 0, 0, 0, 0, 0, 0, 14, 24, 0, 0, 0, 0, 0, 0, 6, 1, 0, 0, 0, 0],
    [0, 0, 14, 40, 0, 0, 0, 0, 0, 0, 54, 32, 0, 0, 0, 0, 0, 0, 14, 24, 0, 0, 0, 0, 0, 0, 6, 1, 0, 0, 0, 0, 1, 0, 7, 2,
      0, 0, 0, 0], _,
    by decide +kernel, by decide, by decide, rfl, by decide +kernel⟩

/-- It works when the sizes are the same. -/
example : ∃ x z, diffApply [.struct [.scalar .u8, .scalar .u16]] 1 [.nest 0 2 [.set 0 .u8 1]]
    [.nest 0 2 [.set 0 .u8 3]] = .ok (some (x, z, z, false)) ∧ x ≠ z :=
  ⟨[0, 0, 14, 24, 0, 0, 0, 0, 0, 0, 14, 16, 0, 0, 0, 0, 0, 0, 6, 1, 0, 0, 0, 0],
    [0, 0, 14, 24, 0, 0, 0, 0, 0, 0, 14, 16, 0, 0, 0, 0, 0, 0, 6, 3, 0, 0, 0, 0], by decide +kernel⟩

theorem setOps_all_length {eqv : α → α → Bool} (fn : UInt16) (enc : α → Bytes) : ∀ (i : Nat) (xs ys : List α),
    xs.length = ys.length → (∀ x ∈ xs, ∀ y ∈ ys, eqv x y = false) → (setOps fn eqv enc i xs ys).length = xs.length
  | _, [], [], _, _ => rfl
  | _, [], _ :: _, h, _ => by simp at h
  | _, _ :: _, [], h, _ => by simp at h
  | i, x :: xs, y :: ys, h, hd => by
    have := setOps_all_length fn enc (i + 1) xs ys (by simpa using h)
      (fun x hx y hy => hd x (by simp [hx]) y (by simp [hy]))
    simp [setOps, hd x (by simp) y (by simp), this]

/-- C21 fails for long lists: `Diff` of two lists of the same length without a common item is one operation for each
item, whatever the length, and from 10001 items on `Apply` rejects this patch. -/
theorem C21_patch_too_large {La Lb : LSt} {A B : LAbs} (ha : Reached [.scalar .lbool] La A)
    (hb : Reached [.scalar .lbool] Lb B) (n : Nat) (hn : 10000 < n)
    (hA : A.current = [.scalar .lbool (List.replicate n true)])
    (hB : B.current = [.scalar .lbool (List.replicate n false)]) :
    ∃ p, diffPatch [.scalar .lbool] La Lb = .ok (some p) ∧ p.ops.length = n ∧
      applyPatch [.scalar .lbool] La p = .ok (La, true) := by
  have h1 := reached_fld ha 0 _ rfl
  have h2 := reached_fld hb 0 _ rfl
  rw [hA] at h1; rw [hB] at h2
  obtain ⟨x, x1, x2, _⟩ := fld_list h1 rfl
  obtain ⟨y, y1, y2, _⟩ := fld_list h2 rfl
  have x2' : x.getD [] = List.replicate n true := x2.trans (by simp [listIn])
  have y2' : y.getD [] = List.replicate n false := y2.trans (by simp [listIn])
  have hlen : (diffList (UInt16.ofNat 0) (fun p q => p == q) boolData (fun l => l.map fun p => if p then (1 : UInt8) else 0)
      (List.replicate n true) (List.replicate n false)).length = n := by
    have h := setOps_all_length (eqv := fun (p q : Bool) => p == q) (UInt16.ofNat 0) boolData 0 (List.replicate n true)
      (List.replicate n false) (by rw [List.length_replicate, List.length_replicate]) (fun x hx y hy => by
        rw [(List.mem_replicate.1 hx).2, (List.mem_replicate.1 hy).2]; rfl)
    have hz : n - n = 0 := by omega
    rw [List.length_replicate] at h
    rw [diffList, List.length_replicate, List.length_replicate, hz, List.drop_of_length_le (by rw [List.length_replicate]; omega),
      insOps, remOps, List.append_nil, List.append_nil, orReplace, h, if_neg (by omega), h]
  refine ⟨⟨1, diffList (UInt16.ofNat 0) (fun p q => p == q) boolData
      (fun l => l.map fun p => if p then (1 : UInt8) else 0) (List.replicate n true) (List.replicate n false)⟩, ?_, hlen,
    C23_too_many_ops _ _ _ (.inl (hlen.symm ▸ hn))⟩
  simp only [diffPatch, diffFields, diffField, x1, y1, x2', y2', Res.ok_bind, Res.pure_eq, List.append_nil]

/-- There are such structs. -/
example (n : Nat) (b : Bool) : ∃ L A, Reached [.scalar .lbool] L A ∧ A.current = [.scalar .lbool (List.replicate n b)] := by
  obtain ⟨s, e, _⟩ := new_rep 1
  have hty : ListsTyped (listsOf [.scalar .lbool]) (List.replicate 1 .absent) := by
    intro fn t _; left; simp; rcases fn with _ | _ <;> rfl
  obtain ⟨hi, _⟩ := begins_inv (.created e) (by decide) hty
  have hf : LFits (listsOf [.scalar .lbool]) ⟨List.replicate 1 .absent, fun _ => none⟩
      [.edit 0 .lbool (fun _ => some (List.replicate n b))] := by
    simp only [LFits]
    refine ⟨⟨by decide, rfl, rfl, _, rfl, ?_⟩, trivial⟩
    simp [STy.Clean, STy.Storable]
  obtain ⟨L, e1, _⟩ := lops_inv _ hi hf
  refine ⟨L, _, .mk (by decide) (.created e) hty hf e1 ?_, ?_⟩
  · simp [LAbs.steps, LAbs.step, LAbs.setShown, List.replicate, FieldsHaveTy, Val.HasTy]
  · simp [LAbs.steps, LAbs.step, LAbs.setShown, LAbs.touch, LAbs.current, List.mapIdx_cons, listIn, STy.zero]

end Claw
