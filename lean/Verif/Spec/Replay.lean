import Verif.Model.Recording
import Verif.Spec.Patch

/-!
# Specification of a recording session: which calls are replayed faithfully, and what it means
-/

namespace Claw

/-- Equal values of a field; a list that is not there counts as empty. -/
def Ty.Agree : Ty → Val → Val → Prop
  | .scalar t, x, y => if t.isList = true then listIn t x = listIn t y else x = y
  | _, x, y => x = y

/-- The call stores a value of the type of the field, and what it stores can be told by an operation of a patch: numbers,
bools, strings, byte slices and whole structs. Lists of structs, Any and maps are missing; a clear is not recorded. -/
def Op.Replayable (tys : List Ty) : Op → Prop
  | .set fn t _ => tys[fn]? = some (.scalar t) ∧ t.plain = true
  | .nest fn m ops => ∃ ctys, tys[fn]? = some (.struct ctys) ∧ m = ctys.length ∧
      FieldsHaveTy (specOps ops (List.replicate m .absent)) ctys
  | .nestNil fn => ∃ ctys, tys[fn]? = some (.struct ctys)
  | .peek => True
  | .clear _ | .nestList _ _ _ => False

/-- The call is within the schema, can be replayed, and leaves less than 2^31 items in a list. -/
def RAct.Fits (tys : List Ty) (A : LAbs) : RAct → Prop
  | .call op => LOp.Fits (listsOf tys) A (.call op) ∧ op.Replayable tys
  | .edit fn t e => LOp.Fits (listsOf tys) A (.edit fn t e.apply) ∧
      ∀ v, e.apply (listIn t (A.touch fn t).items) = some v → (t.itemsOf v).length < 2 ^ 31
  | .access fn t => LOp.Fits (listsOf tys) A (.access fn t)
  | .marshal => LOp.Fits (listsOf tys) A .marshal

/-- All calls are, and the message stays below 4 GiB also when the values of the copy (`base`) are still there. -/
def RFits (tys : List Ty) (base : List Val) : LAbs → List RAct → Prop
  | _, [] => True
  | A, act :: acts => act.Fits tys A ∧ 8 + sizes base + sizes (A.step act.toLOp).current < 2 ^ 32 ∧
      RFits tys base (A.step act.toLOp) acts

end Claw
