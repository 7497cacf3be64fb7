import Verif.Model.Alias

/-!
# What was read from a struct, while the struct is changed

`GetBytes` (bytes.go:104-121) and `GetNestedStruct` (bytes.go:185-202) hand out slices of the struct's own
array. `Model/Alias` follows the calls on a nested struct; here the calls are made on the struct it came from,
after a `[]byte` or a nested struct was obtained. `GetString` (bytes.go:94-101) copies and is not affected.
-/

namespace Claw

/-- A `[]byte` obtained from a struct: it begins at `off` of the array and has `len` bytes. `mem` is the array
from `off` on, `shared` tells that it still is the array of the struct. -/
structure Look where
  owner : St
  off : Nat
  len : Nat
  mem : Bytes
  shared : Bool

/-- bytes.go:106-121 `GetBytes`; `none` is nil. -/
def Look.bytes (s : St) (fn : Nat) : Res (Option Look) := do
  let ((offset, size), s) ← s.fieldOffset fn
  if size = 0 then return none
  else
    let h ← s.seg.sub offset (offset + HeaderSize)
    let (_, _, dataLen) ← Res.ofOption (decodeHeader h)
    if dataLen = 0 then return none
    else
      let _ ← s.seg.sub (offset + HeaderSize) (offset + HeaderSize + dataLen)
      return some ⟨s, offset + HeaderSize, dataLen, (s.seg.data ++ s.seg.spare).drop (offset + HeaderSize), true⟩

/-- What the holder of the slice reads in it. -/
def Look.shows (l : Look) : Bytes := l.mem.take l.len

/-- A call on the struct. What it writes is seen in the slice unless the struct moves to another array, which
only `EnsureCapacity` (segment.go:181-190) does: before anything is written, and to a strictly larger one. -/
def Look.step (l : Look) (op : Op) : Res Look := do
  let s ← op.run l.owner
  if l.shared = true ∧ s.seg.cap = l.owner.seg.cap then
    return { l with owner := s, mem := (s.seg.data ++ s.seg.spare).drop l.off }
  else return { l with owner := s, shared := false }

/-- A sequence of calls on the struct. -/
def Look.run : List Op → Look → Res Look
  | [], l => .ok l
  | op :: ops, l => do
    let l ← l.step op
    Look.run ops l

/-- A call on the parent of a nested struct obtained before. The nested struct keeps its place, its length and
its index (bytes.go:192-199), whatever the array now holds there. -/
def View.ownerStep (v : View) (op : Op) : Res View := do
  let p ← op.run v.parent
  if v.shared = true ∧ p.seg.cap = v.parent.seg.cap then
    let mem := (p.seg.data ++ p.seg.spare).drop v.off
    return { v with parent := p, child := { v.child with
      seg := ⟨mem.take v.child.seg.data.length, mem.drop v.child.seg.data.length⟩ } }
  else return { v with parent := p, shared := false }

/-- A sequence of calls on the parent. -/
def View.ownerRun : List Op → View → Res View
  | [], v => .ok v
  | op :: ops, v => do
    let v ← v.ownerStep op
    View.ownerRun ops v

end Claw
