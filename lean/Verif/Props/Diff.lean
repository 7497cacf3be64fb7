import Verif.Lemmas.Diff
import Verif.Props.ListCache

/-!
# C22: a diff is empty exactly when nothing changed

Equality of records is `SameFields` (Spec/Patch): values are compared as with Go's `==`, NaN equal to NaN, an
unset field equal to zero and a list that is not there equal to an empty one, structs field by field.
-/

namespace Claw

set_option linter.unusedSimpArgs false

/-- `L` is a struct of schema `tys` that was created or decoded and then used by some program of setters, list
accesses and edits, clears and marshals; `A` is what that program means (Spec/ListCache). -/
inductive Reached (tys : List Ty) : LSt → LAbs → Prop
  | mk {r : List Val} {s : St} {ops : List LOp} {L : LSt} : tys.length ≤ 65536 → Begins tys.length r s →
      ListsTyped (listsOf tys) r → LFits (listsOf tys) ⟨r, fun _ => none⟩ ops → runLOps ops (LSt.ofSt s) = .ok L →
      FieldsHaveTy (LAbs.steps ⟨r, fun _ => none⟩ ops).fields tys →
      Reached tys L (LAbs.steps ⟨r, fun _ => none⟩ ops)

theorem Reached.inv {tys : List Ty} {L : LSt} {A : LAbs} (h : Reached tys L A) :
    LInv (listsOf tys) L A ∧ A.fields.length = tys.length ∧ FieldsHaveTy A.fields tys := by
  cases h with
  | @mk r s ops L h1 h2 h3 h4 h5 h6 =>
    obtain ⟨hi, hl⟩ := begins_inv h2 h1 h3
    obtain ⟨L', e1, e2⟩ := lops_inv ops hi h4
    rw [h5] at e1
    rw [Res.ok.inj e1]
    exact ⟨e2, by rw [steps_length]; exact hl, h6⟩

theorem current_getD (A : LAbs) (i : Nat) (hi : i < A.fields.length) : A.current.getD i .absent =
    match A.shown i with
    | some sh => sh.items
    | none => A.fields.getD i .absent := by
  simp only [LAbs.current, List.getD_eq_getElem?_getD, List.getElem?_mapIdx, List.getElem?_eq_getElem hi]
  cases A.shown i <;> rfl

/-- What the getters show. -/
theorem linv_fld {tys : List Ty} {L : LSt} {A : LAbs} (hv : LInv (listsOf tys) L A) (hl : A.fields.length = tys.length)
    (hty : ∀ i ty, tys[i]? = some ty → (A.fields.getD i .absent).HasTy ty) (i : Nat) (ty : Ty)
    (hi : tys[i]? = some ty) : Fld L i ty (A.current.getD i .absent) := by
  have hlt : i < A.fields.length := by rw [hl]; exact (List.getElem?_eq_some_iff.1 hi).1
  rw [current_getD A i hlt]
  cases hs : A.shown i with
  | none =>
    have hr := hv.rep
    rw [← padTo_self (m := 0) (fs := encs A.fields 0) (by omega)] at hr
    exact fld_segment hr (by rw [hv.len]; exact hlt) hv.canon hv.max ty (hty i ty hi) (hv.untouched i hs)
  | some sh =>
    obtain ⟨_, id, t, v, d, e1, e2, e3, e4, e5⟩ := hv.touched i sh hs
    simp only [listsOf, hi] at e2
    cases ty with
    | scalar t' =>
      simp only at e2
      split at e2
      · rename_i hl'
        have := Option.some.inj e2
        subst this
        simp only [Fld, hl', if_true]
        refine .inr ⟨v, e5.items, ?_⟩
        simp [LSt.look, LSt.getL, e1, LSt.items, e5.obj]
      · simp at e2
    | struct _ => simp at e2
    | structs _ => simp at e2

theorem reached_fld {tys : List Ty} {L : LSt} {A : LAbs} (h : Reached tys L A) (i : Nat) (ty : Ty)
    (hi : tys[i]? = some ty) : Fld L i ty (A.current.getD i .absent) := by
  obtain ⟨hv, hl, hty⟩ := h.inv
  exact linv_fld hv hl (fun i ty hi => hty.get i ty hi) i ty hi

/-- **C22** Whenever `Diff` returns a patch for two structs in any state a client can bring them into, the patch
has no operation if and only if all fields are equal. -/
theorem C22_empty_iff_equal {tys : List Ty} {La Lb : LSt} {A B : LAbs} (ha : Reached tys La A) (hb : Reached tys Lb B)
    (p : Patch) (h : diffPatch tys La Lb = .ok (some p)) : p.ops = [] ↔ SameFields tys A.current B.current := by
  have hn := (diffFields_nil tys La Lb 0 A.current B.current
    (fun j ty hj => by rw [Nat.zero_add]; exact reached_fld ha j ty hj)
    (fun j ty hj => by rw [Nat.zero_add]; exact reached_fld hb j ty hj)).1
  obtain ⟨o, e1, e⟩ := Res.bind_eq_ok.1 h
  cases o with
  | none => simp at e
  | some ops =>
    simp at e
    subst e
    exact hn ops e1

/-- **C22** `Diff` of two equal structs does return, with the empty patch, if no field is an Any or a map and
every list of byte slices is there in both. -/
theorem C22_equal_gives_empty_partial {tys : List Ty} {La Lb : LSt} {A B : LAbs} (ha : Reached tys La A)
    (hb : Reached tys Lb B) (hd : DiffableFields tys A.current B.current) (he : SameFields tys A.current B.current) :
    diffPatch tys La Lb = .ok (some ⟨1, []⟩) := by
  have hn := (diffFields_nil tys La Lb 0 A.current B.current
    (fun j ty hj => by rw [Nat.zero_add]; exact reached_fld ha j ty hj)
    (fun j ty hj => by rw [Nat.zero_add]; exact reached_fld hb j ty hj)).2 hd he
  simp [diffPatch, hn]

/-- The equality of C22 is an equality: a struct has no difference from itself. -/
theorem EqvLists.refl {α : Type} {E : α → α → Prop} (h : ∀ x, E x x) (xs : List α) : EqvLists E xs xs :=
  ⟨rfl, fun i x y hx hy => by rw [hx] at hy; rw [Option.some.inj hy]; exact h y⟩

theorem NTy.Eqv.refl (k : NTy) (x : k.Val) : k.Eqv x x := by cases k <;> simp [NTy.Eqv]

theorem STy.Eqv.refl (t : STy) (x : t.Val) : t.Eqv x x := by
  cases t <;> simp only [STy.Eqv]
  case f32 => exact NTy.Eqv.refl .f32 x
  case f64 => exact NTy.Eqv.refl .f64 x
  case lnum k => exact EqvLists.refl (NTy.Eqv.refl k) x

mutual
theorem Ty.Same.refl (ty : Ty) (a : Val) : ty.Same a a := by
  match ty with
  | .scalar t => simp only [Ty.Same]; exact STy.Eqv.refl t _
  | .struct tys => cases a <;> simp only [Ty.Same]; exact SameFields.refl tys _
  | .structs tys =>
    refine ⟨rfl, ?_⟩
    intro p hp
    have : p.1 = p.2 := by
      obtain ⟨i, hi, e⟩ := List.getElem_of_mem hp
      simp only [List.getElem_zip] at e
      rw [← e]
    rw [this]
    exact SameFields.refl tys _
theorem SameFields.refl (tys : List Ty) (vs : List Val) : SameFields tys vs vs := by
  match tys with
  | [] => trivial
  | ty :: tys => exact ⟨Ty.Same.refl ty _, SameFields.refl tys _⟩
end

/-- C22: nothing has changed since the struct was read: two structs in the same state have an empty diff. -/
theorem C22_unchanged_partial {tys : List Ty} {La Lb : LSt} {A B : LAbs} (ha : Reached tys La A) (hb : Reached tys Lb B)
    (hd : DiffableFields tys A.current B.current) (he : A.current = B.current) :
    diffPatch tys La Lb = .ok (some ⟨1, []⟩) :=
  C22_equal_gives_empty_partial ha hb hd (by rw [he]; exact SameFields.refl tys _)

/-! A case: a number, a list of strings, a struct; the programs differ in the list only, and in how they get there. -/

def diffTys : List Ty := [.scalar .u8, .scalar .lstr, .struct [.scalar .u16]]

def diffOpsA : List LOp :=
  [.call (.set 0 .u8 5), .edit 1 .lstr (fun v => some (v ++ [[97]])), .call (.nest 2 1 [.set 0 .u16 300])]

def diffOpsB : List LOp :=
  [.call (.nest 2 1 [.set 0 .u16 300]), .call (.set 0 .u8 5)]

theorem diff_demo (ops : List LOp) (hf : LFits (listsOf diffTys) ⟨List.replicate 3 .absent, fun _ => none⟩ ops)
    (ht : FieldsHaveTy (LAbs.steps ⟨List.replicate 3 .absent, fun _ => none⟩ ops).fields diffTys) :
    ∃ L, Reached diffTys L (LAbs.steps ⟨List.replicate 3 .absent, fun _ => none⟩ ops) := by
  obtain ⟨s, e, _⟩ := new_rep 3
  have hty : ListsTyped (listsOf diffTys) (List.replicate 3 .absent) := by
    intro fn t _; left; simp; rcases fn with _ | _ | _ | _ <;> rfl
  obtain ⟨hi, _⟩ := begins_inv (.created e) (by decide) hty
  obtain ⟨L, e1, _⟩ := lops_inv ops hi hf
  exact ⟨L, .mk (by decide) (.created e) hty hf e1 ht⟩

theorem diff_demoA : ∃ L, Reached diffTys L (LAbs.steps ⟨List.replicate 3 .absent, fun _ => none⟩ diffOpsA) := by
  refine diff_demo _ ?_ ?_
  · simp only [diffOpsA, LFits]
    refine ⟨⟨⟨by decide, trivial⟩, ?_, by decide⟩, ⟨by decide, rfl, rfl, _, rfl, ?_⟩,
      ⟨?_, ?_, by decide⟩, trivial⟩
    · intro fn h; simp [Op.field] at h; subst h; rfl
    · simp [STy.Clean, STy.Storable]; decide
    · simp [Op.Fits, FitsFrom, STy.Clean, STy.Storable, Op.spec, LAbs.step, LAbs.setShown]; decide
    · intro fn h; simp [Op.field] at h; subst h; rfl
  · simp [diffOpsA, LAbs.steps, LAbs.step, Op.spec, LAbs.setShown, diffTys, FieldsHaveTy, specScalar, STy.isZero,
      specStruct, specOps, Val.HasTy, List.replicate, Val.isAbsent]

theorem diff_demoB : ∃ L, Reached diffTys L (LAbs.steps ⟨List.replicate 3 .absent, fun _ => none⟩ diffOpsB) := by
  refine diff_demo _ ?_ ?_
  · simp only [diffOpsB, LFits]
    refine ⟨⟨?_, ?_, by decide⟩, ⟨⟨by decide, trivial⟩, ?_, by decide⟩, trivial⟩
    · simp [Op.Fits, FitsFrom, STy.Clean, STy.Storable, Op.spec, LAbs.step, LAbs.setShown]; decide
    · intro fn h; simp [Op.field] at h; subst h; rfl
    · intro fn h; simp [Op.field] at h; subst h; rfl
  · simp [diffOpsB, LAbs.steps, LAbs.step, Op.spec, LAbs.setShown, diffTys, FieldsHaveTy, specScalar, STy.isZero,
      specStruct, specOps, Val.HasTy, List.replicate, Val.isAbsent]

def diffA : List Val := (LAbs.steps ⟨List.replicate 3 .absent, fun _ => none⟩ diffOpsA).current
def diffB : List Val := (LAbs.steps ⟨List.replicate 3 .absent, fun _ => none⟩ diffOpsB).current

example : diffA = [.scalar .u8 5, .scalar .lstr [[97]], .struct [.scalar .u16 300]] ∧
    diffB = [.scalar .u8 5, .absent, .struct [.scalar .u16 300]] := by
  constructor <;>
    simp [diffA, diffB, diffOpsA, diffOpsB, LAbs.current, LAbs.steps, LAbs.step, Op.spec, LAbs.setShown, LAbs.touch,
      specScalar, STy.isZero, specStruct, specOps, List.replicate, Val.isAbsent, listIn, STy.zero, List.mapIdx_cons]

example : DiffableFields diffTys diffA diffA ∧ ¬ SameFields diffTys diffA diffB := by
  constructor
  · simp [diffTys, DiffableFields, Ty.Diffable, diffA, diffOpsA, LAbs.current, LAbs.steps, LAbs.step, Op.spec,
      LAbs.setShown, LAbs.touch, specScalar, STy.isZero, specStruct, specOps, List.replicate, Val.isAbsent]
  · simp [diffTys, SameFields, Ty.Same, STy.Eqv, diffA, diffB, diffOpsA, diffOpsB, LAbs.current, LAbs.steps, LAbs.step,
      Op.spec, LAbs.setShown, LAbs.touch, specScalar, STy.isZero, specStruct, specOps, List.replicate, Val.isAbsent,
      listIn, STy.zero]

/-! ### Where it fails -/

theorem diffFields_reach {tys : List Ty} {La Lb : LSt} {i : Nat} {ty : Ty} {x : Res (Option (List POp))}
    (k : Nat) (hi : tys[i]? = some ty) (hx : diffField ty La Lb (k + i) = x) (hn : ∀ ops, x ≠ .ok (some ops)) :
    ∀ ops, diffFields tys La Lb k ≠ .ok (some ops) := by
  induction tys generalizing i k with
  | nil => simp at hi
  | cons t tys ih =>
    intro ops e
    rw [diffFields] at e
    obtain ⟨o, e1, e⟩ := Res.bind_eq_ok.1 e
    cases o with
    | none => simp at e
    | some o =>
      obtain ⟨o2, e2, e⟩ := Res.bind_eq_ok.1 e
      cases i with
      | zero =>
        simp at hi
        subst hi
        exact hn o (by rw [← hx]; exact e1)
      | succ i =>
        cases o2 with
        | none => simp at e
        | some o2 =>
          exact ih (k + 1) (i := i) (by simpa using hi) (by rw [show k + 1 + i = k + (i + 1) by omega]; exact hx) o2 e2

/-- C22 fails for lists of byte slices: if one is not there on one side, `Diff` returns no patch, whatever the
other fields are. In particular a fresh struct with such a field cannot be compared with itself. -/
theorem C22_nil_bytes_list {tys : List Ty} {La Lb : LSt} {A B : LAbs} (ha : Reached tys La A) (hb : Reached tys Lb B)
    (i : Nat) (hi : tys[i]? = some (.scalar .lbytes))
    (h : A.current.getD i .absent = .absent ∨ B.current.getD i .absent = .absent) (p : Patch) :
    diffPatch tys La Lb ≠ .ok (some p) := by
  obtain ⟨x, x1, x2, x3, x4⟩ := fld_list (reached_fld ha i _ hi) rfl
  obtain ⟨y, y1, y2, y3, y4⟩ := fld_list (reached_fld hb i _ hi) rfl
  have hp : diffField (.scalar .lbytes) La Lb (0 + i) = .panic := by
    rw [Nat.zero_add, diffField]
    simp only [x1, y1, Res.ok_bind]
    rcases h with h | h
    · rw [x4 h]
    · rw [y4 h]; cases x <;> rfl
  intro e
  obtain ⟨o, e1, e⟩ := Res.bind_eq_ok.1 e
  cases o with
  | none => simp at e
  | some ops => exact diffFields_reach 0 hi hp (by simp) ops e1

/-- And it is a panic when that is the first field. -/
theorem C22_nil_bytes_list_panics : ∃ s, run 1 [] = .ok s ∧
    diffPatch [.scalar .lbytes] (LSt.ofSt s) (LSt.ofSt s) = .panic := by
  refine ⟨_, rfl, ?_⟩
  decide +kernel

/-- C22 does not cover fields of type Any and maps: with one of them in the schema `Diff` returns no patch,
even for equal structs. -/
theorem C22_unsupported (tys : List Ty) (La Lb : LSt) (i : Nat)
    (hi : tys[i]? = some (.scalar .any) ∨ tys[i]? = some (.scalar .lany) ∨
      ∃ kt vt, tys[i]? = some (.scalar (.map kt vt))) (p : Patch) :
    diffPatch tys La Lb ≠ .ok (some p) := by
  intro e
  obtain ⟨o, e1, e⟩ := Res.bind_eq_ok.1 e
  cases o with
  | none => simp at e
  | some ops =>
    rcases hi with hi | hi | ⟨kt, vt, hi⟩ <;>
      exact diffFields_reach (La := La) (Lb := Lb) 0 hi (by rw [diffField]) (by simp) ops e1

end Claw
