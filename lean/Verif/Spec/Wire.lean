import Verif.Model.Struct

/-!
# What a byte string declares

The walk over the fields of an arbitrary byte string, as relations: no parser state, no index.
-/

namespace Claw

/-- Round up to a multiple of 8. -/
def up8 (n : Nat) : Nat := (n + 7) / 8 * 8

/-- The number of bytes a field header declares for its field. For a list of Any the length is not
declared but found by walking over the items (`scanListAny`). -/
def extent (rest : Bytes) (ft f : Nat) : Nat :=
  if ft ≤ 4 ∨ ft = 6 ∨ ft = 7 ∨ ft = 8 ∨ ft = 10 then 8
  else if ft = 5 ∨ ft = 9 ∨ ft = 11 then 16
  else if ft = 12 ∨ ft = 13 then 8 + up8 f
  else if ft = 41 then 8 + up8 ((f + 7) / 8)
  else if ft = 55 then f / 2 ^ 16 % 2 ^ 24
  else if ft = 15 then 8 + f / 2 ^ 8 % 2 ^ 32
  else if ft = 56 then scanListAny rest f 8
  else if ft = 14 ∨ (42 ≤ ft ∧ ft ≤ 54) then f
  else max 8 f

/-- A field header `(fn, ft, f)` stands at position `p` of `data`. -/
def FieldHdr (data : Bytes) (p fn ft f : Nat) : Prop :=
  p + 8 ≤ data.length ∧ decodeHeader (data.drop p) = some (fn, ft, f) ∧ ft ≠ 0

/-- Positions at which a reader that walks field by field looks for a header. -/
inductive Reach (data : Bytes) : Nat → Prop
  | start : Reach data 8
  | next {p fn ft f : Nat} : Reach data p → FieldHdr data p fn ft f →
      0 < extent (data.drop p) ft f → Reach data (p + extent (data.drop p) ft f)

/-- The walk meets a field that declares no bytes at all, not even its own header. -/
def Stuck (data : Bytes) : Prop :=
  ∃ p fn ft f, Reach data p ∧ FieldHdr data p fn ft f ∧ extent (data.drop p) ft f = 0

/-- Only a struct, a non-bool list or a map with declared size 0 can make the walk stuck. -/
def DeclaresNothing (ft f : Nat) : Prop :=
  ((ft = 14 ∨ (42 ≤ ft ∧ ft ≤ 54)) ∧ f = 0) ∨ (ft = 55 ∧ f / 2 ^ 16 % 2 ^ 24 = 0)

end Claw
