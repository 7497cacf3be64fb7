import Verif.Model.Prepare

/-!
# What is expected of the descriptions of structs
-/

namespace Claw.Prepare

/-- The descriptions a description points at. -/
def edges (g : Nat → List Field) (v : Nat) : List Nat := (g v).flatMap fun f => f.mapping.toList ++ f.valMapping.toList

/-- The types a map may have as values (field.go:77-79, the comment). -/
def validValue (t : Nat) : Bool := (1 ≤ t && t ≤ 15) || t == 55 || t == 56

/-- A field is described well: a struct or a list of structs says which, or is marked as the struct it is in
(mapping.go:78-80), and a map has a key and a value of types that maps may have. -/
def Fine (f : Field) : Prop :=
  (f.ty = 14 ∨ f.ty = 54 → f.mapping.isSome = true ∨ f.self = true) ∧
  (f.ty = 55 → f.isMap = true ∧ (f.keyTy ≠ 0 ∧ f.keyTy ≤ 12) ∧ validValue f.valTy = true ∧
    (f.valTy = 14 → f.valMapping.isSome = true))

/-- Only structs, lists of structs and maps of structs point at descriptions. -/
def Plain (f : Field) : Prop :=
  (f.mapping.isSome = true → f.ty = 14 ∨ f.ty = 54) ∧ (f.valMapping.isSome = true → f.ty = 55)

end Claw.Prepare
