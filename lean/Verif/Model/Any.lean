import Verif.Model.Lists

/-!
# Any and lists of Any

Models `/repo/clawc/languages/go/segment/any.go`. A value stored in an Any is the type identity of its
struct type (`XXXTypeHash`, 16 bytes) and the bytes of its segment (`SegmentBytes`). Left out: values
that do not implement the generated interfaces (error returns before anything is touched), and the
pooled buffer of `SetAny` (any.go:137-145), which is overwritten over its whole length.
-/

namespace Claw

/-- maps.go:1033-1036 `MapAnyValue`, any.go:457-460 `AnyRawItem`, and a value given to `SetAny`. -/
structure AnyVal where
  typeHash : Bytes
  data : Bytes
  deriving DecidableEq, Repr

/-- Go's `PutUintN(buf[off:], …)`, `buf[off] = …` and `copy(buf[off:off+n], …)`: panics when the bytes
do not fit. -/
def storeAt (buf : Bytes) (off : Nat) (bs : Bytes) : Option Bytes :=
  if off + bs.length ≤ buf.length then some (goCopy buf off bs) else none

/-- Go's `copy(buf[off:], bs)`: panics when `off` is beyond the end. -/
def copyAt (buf : Bytes) (off : Nat) (bs : Bytes) : Option Bytes :=
  if off ≤ buf.length then some (goCopy buf off bs) else none

/-- any.go:133-155 and 259-270: the field. -/
def anyBlob (fn : Nat) (a : AnyVal) : Option Bytes := do
  let dataSize := (AnyHashSize + a.data.length) % 2 ^ 32
  let buf ← encodeAnyHeaderAt (zeros (HeaderSize + dataSize)) fn FTStruct dataSize
  let buf ← storeAt buf HeaderSize (a.typeHash.take AnyHashSize)
  copyAt buf (HeaderSize + AnyHashSize) a.data

/-- any.go:100-169 `SetAny`; `none` is a nil value or a value with a nil struct. -/
def setAny (s : St) (fn : Nat) (v : Option AnyVal) : Res St :=
  match v with
  | none => setOrClear s fn true none []
  | some a => setOrClear s fn false (anyBlob fn a) (((anyBlob fn a).getD []).drop HeaderSize)

/-- any.go:243-278 `SetAnyRaw`; the Boolean is whether an error is returned. -/
def setAnyRaw (s : St) (fn : Nat) (a : AnyVal) : Res (St × Bool) := do
  if a.data.length = 0 then
    let s ← setAny s fn none
    return (s, false)
  else if a.typeHash.length ≠ AnyHashSize then return (s, true)
  else
    let s ← setAny s fn (some a)
    return (s, false)

/-- any.go:174-195 `GetAnyRaw`; `none` is `ok = false`. -/
def getAnyRaw (s : St) (fn : Nat) : Res (Option AnyVal) := do
  let ((offset, size), s) ← s.fieldOffset fn
  if size = 0 ∨ size < HeaderSize + AnyHashSize then return none
  else
    let d ← s.seg.sub offset (offset + size)
    let (_, fieldType, _) ← Res.ofOption (decodeHeader (d.take HeaderSize))
    if fieldType ≠ FTAny then return none
    else return some ⟨slice d HeaderSize (HeaderSize + AnyHashSize), d.drop (HeaderSize + AnyHashSize)⟩

/-- any.go:217-239, 431-454: decode into a struct `target` of a type with identity `hash`. Gives the
target afterwards and whether an error is returned. `extra` is the part of the message behind the
field. -/
def decodeInto (raw : Option AnyVal) (hash : Bytes) (target : St) (extra : Bytes) : St × Bool :=
  match raw with
  | none => (target, true)
  | some a =>
    if hash ≠ a.typeHash then (target, true)
    else
      match target.unmarshal a.data extra with
      | none => (target, true)
      | some t => (t, false)

/-- any.go:203-239 `GetAny`. -/
def getAny (s : St) (fn : Nat) (hash : Bytes) (target : St) (extra : Bytes) : Res (St × Bool) := do
  let raw ← getAnyRaw s fn
  return decodeInto raw hash target extra

/-- any.go:324-337, 494-502: write the items from `offset` on. -/
def packAnys : Bytes → Nat → List AnyVal → Option Bytes
  | d, _, [] => some d
  | d, offset, a :: as => do
    let d ← storeAt d offset (a.typeHash.take AnyHashSize)
    let d ← storeAt d (offset + AnyHashSize) a.data
    packAnys d (offset + AnyHashSize + a.data.length) as

/-- any.go:295-337: the field. -/
def anysBlob (fn : Nat) (vs : List AnyVal) : Option Bytes := do
  let totalDataSize := vs.foldl (fun n a => n + (AnyHashSize + a.data.length)) 0
  let d ← encodeHeaderAt (zeros (HeaderSize + totalDataSize)) fn FTListAny vs.length
  packAnys d HeaderSize vs

/-- any.go:284-347 `SetListAny`. -/
def setListAny (s : St) (fn : Nat) (vs : List AnyVal) : Res St :=
  setOrClear s fn (vs.length == 0) (anysBlob fn vs) (((anysBlob fn vs).getD []).drop HeaderSize)

/-- any.go:464-509 `SetListAnyRaw`; the Boolean is whether an error is returned. -/
def setListAnyRaw (s : St) (fn : Nat) (vs : List AnyVal) : Res (St × Bool) := do
  if vs.length ≠ 0 ∧ vs.any (fun a => a.typeHash.length != AnyHashSize) then return (s, true)
  else
    let s ← setListAny s fn vs
    return (s, false)

/-- any.go:352-361, 369-378: the bytes and the count of a list of Any; `none` when it is not there. -/
def listAnyField (s : St) (fn : Nat) : Res (Option (Bytes × Nat)) := do
  let ((offset, size), s) ← s.fieldOffset fn
  if size = 0 ∨ size < HeaderSize then return none
  else
    let d ← s.seg.sub offset (offset + size)
    let (_, fieldType, count) ← Res.ofOption (decodeHeader (d.take HeaderSize))
    if fieldType ≠ FTListAny then return none else return some (d, count)

/-- any.go:351-364 `GetListAnyLen`. -/
def getListAnyLen (s : St) (fn : Nat) : Res Nat := do
  match ← listAnyField s fn with
  | none => return 0
  | some (_, count) => return count

/-- any.go:386-411: look for item `index`; `n` items are left to look at, the first is `i`, at `pos`. -/
def findAny (d : Bytes) (index : Nat) : Nat → Nat → Nat → Option AnyVal
  | 0, _, _ => none
  | n + 1, i, pos =>
    if pos + AnyHashSize > d.length then none
    else
      let hash := slice d pos (pos + AnyHashSize)
      let pos := pos + AnyHashSize
      if pos + HeaderSize > d.length then none
      else
        match decodeHeader (slice d pos (pos + HeaderSize)) with
        | none => none
        | some (_, _, structSize) =>
          if i = index then
            if pos + structSize > d.length then none else some ⟨hash, slice d pos (pos + structSize)⟩
          else findAny d index n (i + 1) (pos + structSize)

/-- any.go:368-414 `GetListAnyRaw`. -/
def getListAnyRaw (s : St) (fn index : Nat) : Res (Option AnyVal) := do
  match ← listAnyField s fn with
  | none => return none
  | some (d, count) => if index ≥ count then return none else return findAny d index count 0 HeaderSize

/-- any.go:418-454 `GetListAny`. -/
def getListAny (s : St) (fn index : Nat) (hash : Bytes) (target : St) (extra : Bytes) :
    Res (St × Bool) := do
  let raw ← getListAnyRaw s fn index
  return decodeInto raw hash target extra

/-- Reading all items from `index` on: `for i := …; i < GetListAnyLen(); i++ { GetListAnyRaw(i) }`,
without those that are refused. -/
def getListAnyFrom (s : St) (fn : Nat) : Nat → Nat → Res (List AnyVal)
  | 0, _ => .ok []
  | n + 1, index => do
    let a ← getListAnyRaw s fn index
    let rest ← getListAnyFrom s fn n (index + 1)
    return a.toList ++ rest

/-- All items. -/
def getListAnys (s : St) (fn : Nat) : Res (List AnyVal) := do
  let n ← getListAnyLen s fn
  getListAnyFrom s fn n 0

end Claw
