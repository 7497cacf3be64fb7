import Verif.Model.Api

/-!
# A nested struct and its parent share memory

`GetNestedStruct` (bytes.go:182-202) hands out `parent.seg.data[offset : offset+size]`: the child has
the parent's array, and its capacity reaches to the end of that array.
-/

namespace Claw

/-- A child obtained from a parent. `off` is where the child begins in the parent's array, `shared` tells
that the child still lives there. -/
structure View where
  parent : St
  off : Nat
  child : St
  shared : Bool

/-- bytes.go:185-202 `GetNestedStruct`; `none` when the field is not there. -/
def View.get (p : St) (fn m : Nat) : Res (Option View) := do
  let ((off, _), p') ← p.fieldOffset fn
  match ← getNestedStruct p fn m with
  | none => return none
  | some c => return some ⟨p', off, c, true⟩

/-- The parent when the memory from `off` on is `mem`. -/
def St.overwrite (p : St) (off : Nat) (mem : Bytes) : St :=
  { p with seg :=
    ⟨((p.seg.data ++ p.seg.spare).take off ++ mem).take p.seg.data.length,
     ((p.seg.data ++ p.seg.spare).take off ++ mem).drop p.seg.data.length⟩ }

/-- A call on the child. Its writes go to the parent's array as long as the child lives there. The only
place that moves a struct to another array is `EnsureCapacity` (segment.go:181-190), before anything is
written; the new array is strictly larger, so "same capacity" means "not moved". -/
def View.step (v : View) (op : Op) : Res View := do
  let c ← op.run v.child
  if v.shared = true ∧ c.seg.cap = v.child.seg.cap then
    return { v with child := c, parent := v.parent.overwrite v.off (c.seg.data ++ c.seg.spare) }
  else return { v with child := c, shared := false }

/-- A sequence of calls on the child. -/
def View.run : List Op → View → Res View
  | [], v => .ok v
  | op :: ops, v => do
    let v ← v.step op
    View.run ops v

end Claw
