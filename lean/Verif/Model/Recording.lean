import Verif.Model.Patch

/-!
# Recording edits and replaying them

Models the recorder of `/repo/clawc/languages/go/segment` on structs with list objects: while recording
is on, setters and list methods append a `RecordedOp` to the struct (struct.go:573-604). The setters of
scalars, strings, bytes, nested structs and struct lists record in `Verif.Model.Struct` and
`Verif.Model.Lists`; this file adds the list methods, and a session that switches recording on, makes
calls, drains the recorder and switches it off.

`patch.NewPatchFromOps`, which the comment at struct.tmpl:917 refers to, does not exist in the repository:
`RecOp.toPOp` is the conversion its name and the comment at struct.go:68 describe (the four fields are copied).
-/

namespace Claw

/-- The Go type of the items of a list. -/
@[reducible] def STy.Item : STy → Type
  | .lbool => Bool | .lnum k => k.Val | .lstr => Bytes | .lbytes => Bytes
  | _ => Empty

/-- The items of a list value. -/
def STy.itemsOf : (t : STy) → t.Val → List t.Item
  | .lbool, v => v | .lnum _, v => v | .lstr, v => v | .lbytes, v => v
  | _, _ => []

/-- The list value with these items. -/
def STy.ofItems : (t : STy) → List t.Item → t.Val
  | .lbool, v => v | .lnum _, v => v | .lstr, v => v | .lbytes, v => v
  | t, _ => t.zero

/-- lists.go:47-50, 78-81 (bool), 352-354, 443-445 (the bytes of the number), 641, 668 (string),
824-826, 855-856 (a copy of the bytes): the data of a recorded item. -/
def STy.itemData : (t : STy) → t.Item → Bytes
  | .lbool, b => if b then [1] else [0]
  | .lnum k, x => putLE k.size (k.bits x)
  | .lstr, x => x
  | .lbytes, x => x
  | _, _ => []

/-- lists.go:99-104, 495-497, 682 and 695-714, 877 and 890-910: the data of a recorded `SetAll`. -/
def STy.allData : (t : STy) → List t.Item → Bytes
  | .lbool, v => v.map fun b => if b then 1 else 0
  | .lnum k, v => (Nums.setAll k v).data
  | .lstr, v => patchItems v
  | .lbytes, v => patchItems v
  | _, _ => []

/-- A call of a method of a list object. -/
inductive ListCall (t : STy) where
  | append (vs : List t.Item)
  | set (i : Nat) (x : t.Item)
  | setAll (vs : List t.Item)

/-- What it does to the items; `none` is an index panic (lists.go:71-73 and the like). -/
def ListCall.apply {t : STy} : ListCall t → t.Val → Option t.Val
  | .append vs, v => some (t.ofItems (t.itemsOf v ++ vs))
  | .set i x, v => if i < (t.itemsOf v).length then some (t.ofItems ((t.itemsOf v).set i x)) else none
  | .setAll vs, _ => some (t.ofItems vs)

/-- The records of an `Append`, from index `i` on. -/
def insRecs (t : STy) (fn : Nat) : Nat → List t.Item → List RecOp
  | _, [] => []
  | i, x :: xs => ⟨fn, 6, (Int32.ofNat i).toInt, t.itemData x⟩ :: insRecs t fn (i + 1) xs

/-- lists.go:45-58, 77-88, 97-111, 350-361, 443-452, 494-504, 636-645, 664-671, 680-689, 823-834, 854-863,
875-884: what is recorded, for a list that had `len` items. -/
def ListCall.recs {t : STy} (fn : Nat) (len : Nat) : ListCall t → List RecOp
  | .append vs => insRecs t fn len vs
  | .set i x => [⟨fn, 5, (Int32.ofNat i).toInt, t.itemData x⟩]
  | .setAll vs => [⟨fn, OpListReplace, -1, t.allData vs⟩]

/-- struct.go:588-592 for several operations. -/
def LSt.record (L : LSt) (ops : List RecOp) : LSt := { L with st := ops.foldl St.recordOp L.st }

/-- One call on a struct that may be recording. -/
inductive RAct where
  | call (op : Op)
  | edit (fn : Nat) (t : STy) (e : ListCall t)
  | access (fn : Nat) (t : STy)
  | marshal

/-- The same call without its records. -/
def RAct.toLOp : RAct → LOp
  | .call op => .call op
  | .edit fn t e => .edit fn t e.apply
  | .access fn t => .access fn t
  | .marshal => .marshal

/-- Run one call. -/
def RAct.run : RAct → LSt → Res LSt
  | .edit fn t e, L => do
    let (id, L) ← L.access fn t
    let v ← L.items id t
    let L ← L.edit fn t e.apply
    return L.record (e.recs fn (t.itemsOf v).length)
  | .call op, L => LOp.run (.call op) L
  | .access fn t, L => LOp.run (.access fn t) L
  | .marshal, L => LOp.run .marshal L

def runActs : List RAct → LSt → Res LSt
  | [], L => .ok L
  | a :: as, L => do
    let L ← a.run L
    runActs as L

/-- A recording session: the recorder is empty (`DrainRecordedOps`), `SetRecording(true)`, calls,
`DrainRecordedOps`, `SetRecording(false)`. The result are the recorded operations and the struct. -/
def session (acts : List RAct) (L : LSt) : Res (List RecOp × LSt) := do
  let L := { L with st := L.st.drainRecordedOps.2.setRecording true }
  let L ← runActs acts L
  let (ops, st) := L.st.drainRecordedOps
  return (ops, { L with st := st.setRecording false })

/-- A recorded operation as an operation of a patch (struct.go:65-72, msgs.claw:27-36). -/
def RecOp.toPOp (o : RecOp) : POp := ⟨UInt16.ofNat o.fieldNum, UInt8.ofNat o.opType, Int32.ofInt o.index, o.data⟩

/-- lists.go:1061-1080: what `Append` of one struct, whose bytes are `d`, records on a list of `len` structs. -/
def structAppendRec (fn len : Nat) (d : Bytes) : RecOp := ⟨fn, 6, (Int32.ofNat len).toInt, d⟩

/-- maps.go:96-103: what `Set` of a map records; `d` is the entry (struct.go:85: operation 9). -/
def mapSetRec (fn : Nat) (d : Bytes) : RecOp := ⟨fn, 9, -1, d⟩

/-- maps.go:114-121: what `Delete` of a map records; `d` is the key (struct.go:86: operation 10). -/
def mapDeleteRec (fn : Nat) (d : Bytes) : RecOp := ⟨fn, 10, -1, d⟩

end Claw
