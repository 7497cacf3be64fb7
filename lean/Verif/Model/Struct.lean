import Verif.Model.Header
import Verif.Model.Res

/-!
# Segments and structs

Models `/repo/clawc/languages/go/segment/{segment,struct,scalar,bytes}.go`: the byte segment,
the lazily parsed field index, insertion and removal of fields, scalar/bytes/nested setters
and getters, `Marshal` and `Unmarshal`.

A struct here owns its backing array; sharing of backing arrays between a parent and a nested
view is the subject of `Verif.Model.Alias`. The list and map caches (`lists`, `dirtyLists`) are
the subject of `Verif.Model.Lists`: the functions of this file that would first sync dirty
lists (`Marshal`, `SetNestedStruct`) are modelled for a struct with no pending list.
-/

namespace Claw

/-- segment.go:142-144 `Segment`. `data` is the slice `s.data`; `spare` are the bytes of the
backing array between `len` and `cap`. -/
structure Seg where
  data : Bytes
  spare : Bytes
  deriving DecidableEq, Repr

namespace Seg

/-- `cap(s.data)`. -/
def cap (g : Seg) : Nat := g.data.length + g.spare.length

/-- segment.go:149-157 `NewSegment`. -/
def new (capacity : Nat) : Seg :=
  let c := if capacity < 64 then 64 else capacity
  ⟨zeros 8, zeros (c - 8)⟩

/-- Go's `s.data[:n]` for `len ≤ n ≤ cap`: grow into the spare bytes. -/
def grow (g : Seg) (d : Nat) : Seg := ⟨g.data ++ g.spare.take d, g.spare.drop d⟩

/-- Go's `s.data[:len-d]`. -/
def shrink (g : Seg) (d : Nat) : Seg :=
  ⟨g.data.take (g.data.length - d), g.data.drop (g.data.length - d) ++ g.spare⟩

/-- segment.go:181-190 `EnsureCapacity`. -/
def ensureCapacity (g : Seg) (n : Nat) : Seg :=
  let needed := g.data.length + n
  if needed ≤ g.cap then g
  else
    let newCap := max (g.cap * 2) needed
    ⟨g.data, zeros (newCap - g.data.length)⟩

/-- segment.go:193-196 `Append` (after `EnsureCapacity` the append stays in place). -/
def append (g : Seg) (d : Bytes) : Seg :=
  let g := g.ensureCapacity d.length
  let g' := g.grow d.length
  { g' with data := goCopy g'.data g.data.length d }

/-- segment.go:200-218 `InsertAt`. -/
def insertAt (g : Seg) (offset : Nat) (d : Bytes) : Res Seg :=
  if offset > g.data.length then .panic
  else if d.length = 0 then .ok g
  else
    let g := g.ensureCapacity d.length
    let oldLen := g.data.length
    let g := g.grow d.length
    let data := if offset < oldLen
      then goCopy g.data (offset + d.length) (slice g.data offset oldLen)
      else g.data
    .ok { g with data := goCopy data offset d }

/-- segment.go:221-231 `RemoveAt`. -/
def removeAt (g : Seg) (offset n : Nat) : Res Seg :=
  if offset + n > g.data.length then .panic
  else if n = 0 then .ok g
  else
    let g := { g with data := goCopy g.data offset (g.data.drop (offset + n)) }
    .ok (g.shrink n)

/-- segment.go:235-257 `ReplaceAt`. -/
def replaceAt (g : Seg) (offset n : Nat) (d : Bytes) : Res Seg :=
  if offset + n > g.data.length then .panic
  else if d.length = n then .ok { g with data := goCopy g.data offset d }
  else if n < d.length then
    let delta := d.length - n
    let g := g.ensureCapacity delta
    let oldLen := g.data.length
    let g := g.grow delta
    let data := goCopy g.data (offset + d.length) (slice g.data (offset + n) oldLen)
    .ok { g with data := goCopy data offset d }
  else
    let g := { g with data := goCopy g.data (offset + d.length) (g.data.drop (offset + n)) }
    let g := g.shrink (n - d.length)
    .ok { g with data := goCopy g.data offset d }

/-- Go's slice expression `s.data[a:b]`: legal up to the capacity. -/
def sub (g : Seg) (a b : Nat) : Res Bytes :=
  if a ≤ b ∧ b ≤ g.cap then .ok (slice (g.data ++ g.spare) a b) else .panic

/-- struct.go:255-258 `updateHeaderSize` (also struct.go:377, 400): write `final40` of the
header in `s.data[0:8]`. -/
def putHeaderSize (g : Seg) (size : Nat) : Res Seg :=
  if g.cap < 8 then .panic
  else
    match encodeHeaderFinal40 (g.data ++ g.spare) size with
    | none => .panic
    | some b => .ok ⟨b.take g.data.length, b.drop g.data.length⟩

end Seg

/-- struct.go:13-17 `fieldEntry`; `offset` and `size` are `uint32`. -/
structure Entry where
  offset : Nat
  size : Nat
  isSet : Bool
  deriving DecidableEq, Repr

/-- The zero `fieldEntry{}`. -/
def Entry.zero : Entry := ⟨0, 0, false⟩

/-- struct.go:66-71 `RecordedOp`. -/
structure RecOp where
  fieldNum : Nat
  opType : Nat
  index : Int
  data : Bytes
  deriving DecidableEq, Repr

/-- struct.go:75-87. -/
abbrev OpSet : Nat := 1
abbrev OpClear : Nat := 2
abbrev OpListReplace : Nat := 4

/-- struct.go:21-52 `Struct`. `idx.length` is `len(s.mapping.Fields)`. Simplified: the parent
link (never used, struct.go:261-270) and the list caches are left out. -/
structure St where
  seg : Seg
  idx : List Entry
  parsed : Bool
  isSetEnabled : Bool
  isSetBits : Option Bytes
  recording : Bool
  ops : List RecOp
  deriving DecidableEq, Repr

/-! ### Types of fields (field/field.go:12-46) -/
abbrev FTBool : Nat := 1
abbrev FTInt8 : Nat := 2
abbrev FTInt16 : Nat := 3
abbrev FTInt32 : Nat := 4
abbrev FTInt64 : Nat := 5
abbrev FTUint8 : Nat := 6
abbrev FTUint16 : Nat := 7
abbrev FTUint32 : Nat := 8
abbrev FTUint64 : Nat := 9
abbrev FTFloat32 : Nat := 10
abbrev FTFloat64 : Nat := 11
abbrev FTString : Nat := 12
abbrev FTBytes : Nat := 13
abbrev FTStruct : Nat := 14
abbrev FTListBools : Nat := 41
abbrev FTListInt8 : Nat := 42
abbrev FTListInt16 : Nat := 43
abbrev FTListInt32 : Nat := 44
abbrev FTListInt64 : Nat := 45
abbrev FTListUint8 : Nat := 46
abbrev FTListUint16 : Nat := 47
abbrev FTListUint32 : Nat := 48
abbrev FTListUint64 : Nat := 49
abbrev FTListFloat32 : Nat := 50
abbrev FTListFloat64 : Nat := 51
abbrev FTListBytes : Nat := 52
abbrev FTListStrings : Nat := 53
abbrev FTListStructs : Nat := 54
abbrev FTListAny : Nat := 56

/-- any.go `AnyHashSize`. -/
abbrev AnyHashSize : Nat := 16

/-- field/field.go:50-52 `IsListType`. -/
def isListType (t : Nat) : Bool := (decide (FTListBools ≤ t) && decide (t ≤ FTListStructs)) || t == FTListAny

/-- bytes.go:9-18 `paddingNeeded` (sizes are never negative here). -/
def paddingNeeded (size : Nat) : Nat :=
  if size % 8 = 0 then 0 else 8 - size % 8

/-- bytes.go:258-272: the scan over the items of a list of Any. `p` is the position relative to
the field header at the start of `rest`. -/
def scanListAny (rest : Bytes) : Nat → Nat → Nat
  | 0, p => p
  | n + 1, p =>
    if p + AnyHashSize + HeaderSize > rest.length then p
    else
      let p := p + AnyHashSize
      match decodeHeader (rest.drop p) with
      | none => p
      | some (_, _, structSize) => scanListAny rest n (p + structSize)

/-- bytes.go:223-283: the size of the field whose header is at the start of `rest`. -/
def fieldSizeAt (rest : Bytes) (fieldType final40 : Nat) : Nat :=
  if fieldType = FTBool ∨ fieldType = FTInt8 ∨ fieldType = FTInt16 ∨ fieldType = FTInt32 ∨
     fieldType = FTUint8 ∨ fieldType = FTUint16 ∨ fieldType = FTUint32 ∨ fieldType = FTFloat32 then
    HeaderSize
  else if fieldType = FTInt64 ∨ fieldType = FTUint64 ∨ fieldType = FTFloat64 then
    HeaderSize + 8
  else if fieldType = FTString ∨ fieldType = FTBytes then
    HeaderSize + final40 + paddingNeeded final40
  else if fieldType = FTStruct then final40
  else if fieldType = FTListBools then
    let numBytes := (final40 + 7) / 8
    HeaderSize + numBytes + paddingNeeded numBytes
  else if fieldType = FTMap then (final40 >>> 16) &&& 0xFFFFFF
  else if fieldType = FTAny then HeaderSize + ((final40 >>> 8) &&& 0xFFFFFFFF)
  else if fieldType = FTListAny then scanListAny rest final40 HeaderSize
  else if isListType fieldType then final40
  else if final40 < HeaderSize then HeaderSize else final40

/-- bytes.go:285-292: record a field position if its number is in the index. -/
def recordEntry (idx : List Entry) (fieldNum pos size : Nat) : List Entry :=
  if fieldNum < idx.length then idx.set fieldNum ⟨pos % 2 ^ 32, size % 2 ^ 32, true⟩ else idx

/-- One turn of the loop of `parseFieldIndex`, bytes.go:214-294, exactly as written: `none`
means the loop ends, `some (pos', idx')` is the state after one turn. -/
def parseStep (data : Bytes) (pos : Nat) (idx : List Entry) : Option (Nat × List Entry) :=
  if pos + HeaderSize ≤ data.length then
    match decodeHeader (data.drop pos) with
    | none => none
    | some (fieldNum, fieldType, final40) =>
      if fieldType = 0 then none
      else
        let fieldSize := fieldSizeAt (data.drop pos) fieldType final40
        some (pos + fieldSize, recordEntry idx fieldNum pos fieldSize)
  else none

/-- The loop of `parseFieldIndex` as a function of the bytes not yet read. A turn that does not
advance (`fieldSize = 0`) repeats for ever and is reported as `hang`. Every other turn consumes a
byte, so `rest.length` turns of fuel are enough: `Verif.Lemmas.Parse.parseLoop_eq` gives the
fuel-free recursion equation and `parse_hang_iff`/`parse_ok_iff` show agreement with iterating
`parseStep`. -/
def parseFuel : Nat → Nat → Bytes → List Entry → Res (List Entry)
  | 0, _, _, idx => .ok idx
  | fuel + 1, pos, rest, idx =>
    if HeaderSize ≤ rest.length then
      match decodeHeader rest with
      | none => .ok idx
      | some (fieldNum, fieldType, final40) =>
        if fieldType = 0 then .ok idx
        else
          let fieldSize := fieldSizeAt rest fieldType final40
          let idx' := recordEntry idx fieldNum pos fieldSize
          if fieldSize = 0 then .hang
          else parseFuel fuel (pos + fieldSize) (rest.drop fieldSize) idx'
    else .ok idx

/-- See `parseFuel`. -/
def parseLoop (pos : Nat) (rest : Bytes) (idx : List Entry) : Res (List Entry) :=
  parseFuel rest.length pos rest idx

namespace St

/-- struct.go:94-105 `New`, with pools returning a fresh 64-byte segment and a cleared index
(segment.go:50-59, 84-103). -/
def new (m : Nat) : Res St := do
  let g := Seg.new 64
  let b ← Res.ofOption (encodeHeaderAt (g.data.take 8) 0 FTStruct 8)
  return ⟨{ g with data := b ++ g.data.drop 8 }, List.replicate m Entry.zero, false, false, none,
    false, []⟩

/-- bytes.go:206-295 `parseFieldIndex`. -/
def parseFieldIndex (s : St) : Res St := do
  let idx ← parseLoop HeaderSize (s.seg.data.drop HeaderSize) s.idx
  return { s with idx := idx }

/-- struct.go:494-499 `ensureFieldIndexParsed`. -/
def ensure (s : St) : Res St := do
  if s.parsed then return s
  let s ← s.parseFieldIndex
  return { s with parsed := true }

/-- struct.go:133-141 `markFieldSet`. -/
def markFieldSet (s : St) (fn : Nat) : St :=
  match s.isSetEnabled, s.isSetBits with
  | true, some bits =>
    let byteIdx := fn / 7
    let bitIdx := fn % 7
    match bits[byteIdx]? with
    | some b => { s with isSetBits := some (bits.set byteIdx (b ||| (1 <<< UInt8.ofNat bitIdx))) }
    | none => s
  | _, _ => s

/-- struct.go:145-158 `findInsertPosition`. -/
def findInsertPosition (s : St) (fn : Nat) : Nat :=
  (s.idx.take fn).foldl
    (fun pos entry => if entry.size > 0 then entry.offset + entry.size else pos) HeaderSize

/-- struct.go:162-169 `updateFieldOffsets`; `uint32(int(offset)+delta)` wraps. -/
def updateFieldOffsets (idx : List Entry) (afterOffset : Nat) (delta : Int) : List Entry :=
  idx.map fun e =>
    if e.size > 0 ∧ e.offset ≥ afterOffset
    then { e with offset := (((e.offset : Int) + delta) % 2 ^ 32).toNat } else e

/-- struct.go:255-258 `updateHeaderSize`. -/
def updateHeaderSize (s : St) : Res St := do
  let g ← s.seg.putHeaderSize s.seg.data.length
  return { s with seg := g }

/-- struct.go:173-222 `insertField`. -/
def insertField (s : St) (fn : Nat) (d : Bytes) : Res St := do
  let s ← s.ensure
  match s.idx[fn]? with
  | none => .panic
  | some existing =>
    let totalSize := d.length
    if existing.size > 0 then
      if totalSize = existing.size then
        if existing.offset > s.seg.data.length then .panic
        else
          let s := { s with seg := { s.seg with data := goCopy s.seg.data existing.offset d } }
          let s := { s with idx := s.idx.set fn ⟨existing.offset, totalSize % 2 ^ 32, true⟩ }
          s.updateHeaderSize
      else
        let g ← s.seg.replaceAt existing.offset existing.size d
        let idx := updateFieldOffsets s.idx (existing.offset + existing.size)
          ((totalSize : Int) - existing.size)
        let s := { s with
          seg := g
          idx := idx.set fn ⟨existing.offset, totalSize % 2 ^ 32, true⟩ }
        s.updateHeaderSize
    else
      let insertPos := s.findInsertPosition fn
      let g ← s.seg.insertAt insertPos d
      let idx := updateFieldOffsets s.idx insertPos totalSize
      let s := { s with
        seg := g
        idx := idx.set fn ⟨insertPos % 2 ^ 32, totalSize % 2 ^ 32, true⟩ }
      s.updateHeaderSize

/-- struct.go:225-250 `removeField`. -/
def removeField (s : St) (fn : Nat) : Res St := do
  let s ← s.ensure
  match s.idx[fn]? with
  | none => return s
  | some existing =>
    if existing.size = 0 then return s
    else
      let g ← s.seg.removeAt existing.offset existing.size
      let idx := updateFieldOffsets s.idx (existing.offset + existing.size) (-(existing.size : Int))
      let s := { s with seg := g, idx := idx.set fn Entry.zero }
      s.updateHeaderSize

/-- struct.go:588-592 `RecordOp`. -/
def recordOp (s : St) (op : RecOp) : St :=
  if s.recording then { s with ops := s.ops ++ [op] } else s

/-- struct.go:575-580 `SetRecording`. -/
def setRecording (s : St) (enabled : Bool) : St := { s with recording := enabled }

/-- struct.go:596-604 `DrainRecordedOps`. -/
def drainRecordedOps (s : St) : List RecOp × St := (s.ops, { s with ops := [] })

/-- struct.go:502-508 `HasField`; the second component is the struct after lazy parsing. -/
def hasField (s : St) (fn : Nat) : Res (Bool × St) := do
  let s ← s.ensure
  match s.idx[fn]? with
  | none => return (false, s)
  | some e => return (decide (e.size > 0), s)

/-- struct.go:511-518 `FieldOffset`: offset, size, and the struct after lazy parsing. -/
def fieldOffset (s : St) (fn : Nat) : Res ((Nat × Nat) × St) := do
  let s ← s.ensure
  match s.idx[fn]? with
  | none => return ((0, 0), s)
  | some e => return ((e.offset, e.size), s)

/-- struct.go:118-130 `SetIsSetEnabled`. -/
def setIsSetEnabled (s : St) (enabled : Bool) : St :=
  let s := { s with isSetEnabled := enabled }
  if enabled ∧ s.isSetBits = none then
    let numBytes := (s.idx.length + 6) / 7
    let numBytes := if numBytes = 0 then 1 else numBytes
    { s with isSetBits := some (zeros (((numBytes + 7) / 8) * 8)) }
  else s

/-- struct.go:352-356: set the continuation bit of all but the last data byte. -/
def setContinuation (bits : Bytes) (n : Nat) : Bytes :=
  (bits.take n).map (· ||| 0x80) ++ bits.drop n

/-- struct.go:344-359 `appendIsSetBitfield`. -/
def appendIsSetBitfield (s : St) : St :=
  match s.isSetEnabled, s.isSetBits with
  | true, some bits =>
    let numBytes := (s.idx.length + 6) / 7
    let numBytes := if numBytes = 0 then 1 else numBytes
    let bits := setContinuation bits (numBytes - 1)
    { s with isSetBits := some bits, seg := s.seg.append bits }
  | _, _ => s

/-- struct.go:387-406 `Marshal` with no pending list: the bytes and the struct afterwards. -/
def marshal (s : St) : Res (Bytes × St) := do
  let s :=
    if s.isSetEnabled ∧ s.isSetBits ≠ none then
      { s.appendIsSetBitfield with isSetEnabled := false }
    else s
  let g ← s.seg.putHeaderSize s.seg.data.length
  let s := { s with seg := g }
  return (s.seg.data, s)

/-- struct.go:427-448 `Unmarshal`. `none` is the error return. `extra` are the bytes of the
caller's backing array beyond `len(data)` (reachable by re-slicing, never by a reader that
respects lengths). The stale `fieldIndex` is kept, as in the code. -/
def unmarshal (s : St) (data extra : Bytes) : Option St :=
  if data.length < HeaderSize then none
  else
    match decodeHeader (data.take HeaderSize) with
    | none => none
    | some (_, fieldType, totalSize) =>
      if fieldType ≠ FTStruct then none
      else if totalSize > data.length then none
      else
        some { s with
          seg := ⟨data.take totalSize, data.drop totalSize ++ extra⟩
          parsed := false }

end St

/-! ### Setters and getters -/

/-- The common shape of every setter of scalar.go and bytes.go: a zero value removes the field
and records a clear; otherwise the encoded field is inserted, marked and recorded. -/
def setOrClear (s : St) (fn : Nat) (isZero : Bool) (blob : Option Bytes) (recData : Bytes) :
    Res St := do
  if isZero then
    let s ← s.removeField fn
    return s.recordOp ⟨fn, OpClear, -1, []⟩
  else
    let b ← Res.ofOption blob
    let s ← s.insertField fn b
    let s := s.markFieldSet fn
    return s.recordOp ⟨fn, OpSet, -1, recData⟩

/-- A float32 as its IEEE-754 bit pattern; a float64 likewise. -/
structure F32 where
  bits : UInt32
  deriving DecidableEq, Repr
structure F64 where
  bits : UInt64
  deriving DecidableEq, Repr

/-- Go's `value == 0` on floats: true for both zeros. -/
def F32.isZero (x : F32) : Bool := x.bits == 0 || x.bits == 0x80000000
def F64.isZero (x : F64) : Bool := x.bits == 0 || x.bits == 0x8000000000000000

/-- `header + 8 bytes of data`, the pattern of SetInt64/SetUint64/SetFloat64
(scalar.go:112-114, 198-200, 245-247). -/
def wide (fn ft v : Nat) : Option Bytes :=
  match encodeHeaderAt (zeros 16) fn ft 0 with
  | none => none
  | some d => some (goCopy d 8 (putLE 8 v))

/-- scalar.go:16-36 `SetBool`. -/
def setBool (s : St) (fn : Nat) (v : Bool) : Res St :=
  setOrClear s fn (!v) (makeHeader fn FTBool 1) [1]
/-- scalar.go:39-57 `SetInt8`. -/
def setInt8 (s : St) (fn : Nat) (v : Int8) : Res St :=
  setOrClear s fn (v == 0) (makeHeader fn FTInt8 v.toUInt8.toNat) [v.toUInt8]
/-- scalar.go:60-78 `SetInt16`. -/
def setInt16 (s : St) (fn : Nat) (v : Int16) : Res St :=
  setOrClear s fn (v == 0) (makeHeader fn FTInt16 v.toUInt16.toNat) (putLE 2 v.toUInt16.toNat)
/-- scalar.go:81-99 `SetInt32`. -/
def setInt32 (s : St) (fn : Nat) (v : Int32) : Res St :=
  setOrClear s fn (v == 0) (makeHeader fn FTInt32 v.toUInt32.toNat) (putLE 4 v.toUInt32.toNat)
/-- scalar.go:102-122 `SetInt64`. -/
def setInt64 (s : St) (fn : Nat) (v : Int64) : Res St :=
  setOrClear s fn (v == 0) (wide fn FTInt64 v.toUInt64.toNat) (putLE 8 v.toUInt64.toNat)
/-- scalar.go:125-143 `SetUint8`. -/
def setUint8 (s : St) (fn : Nat) (v : UInt8) : Res St :=
  setOrClear s fn (v == 0) (makeHeader fn FTUint8 v.toNat) [v]
/-- scalar.go:146-164 `SetUint16`. -/
def setUint16 (s : St) (fn : Nat) (v : UInt16) : Res St :=
  setOrClear s fn (v == 0) (makeHeader fn FTUint16 v.toNat) (putLE 2 v.toNat)
/-- scalar.go:167-185 `SetUint32`. -/
def setUint32 (s : St) (fn : Nat) (v : UInt32) : Res St :=
  setOrClear s fn (v == 0) (makeHeader fn FTUint32 v.toNat) (putLE 4 v.toNat)
/-- scalar.go:188-208 `SetUint64`. -/
def setUint64 (s : St) (fn : Nat) (v : UInt64) : Res St :=
  setOrClear s fn (v == 0) (wide fn FTUint64 v.toNat) (putLE 8 v.toNat)
/-- scalar.go:211-231 `SetFloat32`. -/
def setFloat32 (s : St) (fn : Nat) (v : F32) : Res St :=
  setOrClear s fn v.isZero (makeHeader fn FTFloat32 v.bits.toNat) (putLE 4 v.bits.toNat)
/-- scalar.go:234-255 `SetFloat64`. -/
def setFloat64 (s : St) (fn : Nat) (v : F64) : Res St :=
  setOrClear s fn v.isZero (wide fn FTFloat64 v.bits.toNat) (putLE 8 v.bits.toNat)
/-- scalar.go:258-262 `SetEnum`. -/
def setEnum (s : St) (fn : Nat) (v : UInt16) : Res St := setUint16 s fn v

/-- The buffer built by `SetBytes`/`SetStringAsBytes`, bytes.go:41-53, 78-84. -/
def bytesBlob (fn ft : Nat) (v : Bytes) : Option Bytes :=
  let totalSize := HeaderSize + v.length + paddingNeeded v.length
  match encodeHeaderAt (zeros totalSize) fn ft v.length with
  | none => none
  | some d => some (goCopy d 8 v)

/-- bytes.go:31-66 `SetBytes` (and `SetString`, bytes.go:26-28). -/
def setBytes (s : St) (fn : Nat) (v : Bytes) : Res St :=
  setOrClear s fn (v.length == 0) (bytesBlob fn FTBytes v) v
/-- bytes.go:69-92 `SetStringAsBytes`. -/
def setStringAsBytes (s : St) (fn : Nat) (v : Bytes) : Res St :=
  setOrClear s fn (v.length == 0) (bytesBlob fn FTString v) v

/-- The buffer built by `SetNestedStruct`, bytes.go:160-170. -/
def nestedBlob (fn : Nat) (childData : Bytes) : Option Bytes :=
  let body := childData.drop HeaderSize
  let childSize := body.length + HeaderSize
  match encodeHeaderAt (zeros childSize) fn FTStruct childSize with
  | none => none
  | some d => some (goCopy d 8 body)

/-- bytes.go:136-180 `SetNestedStruct`; a nil child is `none`. The child has no pending list
(bytes.go:148 syncs them first). -/
def setNestedStruct (s : St) (fn : Nat) (child : Option St) : Res St :=
  match child with
  | none => setOrClear s fn true none []
  | some c =>
    setOrClear s fn (decide (c.seg.data.length ≤ HeaderSize)) (nestedBlob fn c.seg.data) c.seg.data

/-- getters.go:253-258 `ClearField` (the list cache part is in `Verif.Model.Lists`). -/
def clearField (s : St) (fn : Nat) : Res St := s.removeField fn

/-- The header of a present field as read by the scalar getters: `DecodeHeader(s.seg.data[offset
: offset+HeaderSize])`; `none` when absent. -/
def getFinal40 (s : St) (fn : Nat) : Res (Option Nat) := do
  let ((offset, size), s) ← s.fieldOffset fn
  if size = 0 then return none
  else
    let h ← s.seg.sub offset (offset + HeaderSize)
    let (_, _, f) ← Res.ofOption (decodeHeader h)
    return some f

/-- The 64-bit value of a present field: `LittleEndian.Uint64(s.seg.data[offset+HeaderSize:])`;
`none` when absent. -/
def getWide (s : St) (fn : Nat) : Res (Option Nat) := do
  let ((offset, size), s) ← s.fieldOffset fn
  if size = 0 then return none
  else if offset + HeaderSize > s.seg.data.length then .panic
  else
    let r := s.seg.data.drop (offset + HeaderSize)
    if r.length < 8 then .panic else return some (getLE (r.take 8))

/-- scalar.go:265-272 `GetBool`. -/
def getBool (s : St) (fn : Nat) : Res Bool := do
  match ← getFinal40 s fn with
  | none => return false
  | some f => return f != 0
/-- scalar.go:275-282 `GetInt8`. -/
def getInt8 (s : St) (fn : Nat) : Res Int8 := do
  match ← getFinal40 s fn with
  | none => return 0
  | some f => return (UInt8.ofNat f).toInt8
/-- scalar.go:285-292 `GetInt16`. -/
def getInt16 (s : St) (fn : Nat) : Res Int16 := do
  match ← getFinal40 s fn with
  | none => return 0
  | some f => return (UInt16.ofNat f).toInt16
/-- scalar.go:295-302 `GetInt32`. -/
def getInt32 (s : St) (fn : Nat) : Res Int32 := do
  match ← getFinal40 s fn with
  | none => return 0
  | some f => return (UInt32.ofNat f).toInt32
/-- scalar.go:305-312 `GetInt64`. -/
def getInt64 (s : St) (fn : Nat) : Res Int64 := do
  match ← getWide s fn with
  | none => return 0
  | some f => return (UInt64.ofNat f).toInt64
/-- scalar.go:315-322 `GetUint8`. -/
def getUint8 (s : St) (fn : Nat) : Res UInt8 := do
  match ← getFinal40 s fn with
  | none => return 0
  | some f => return UInt8.ofNat f
/-- scalar.go:325-332 `GetUint16`. -/
def getUint16 (s : St) (fn : Nat) : Res UInt16 := do
  match ← getFinal40 s fn with
  | none => return 0
  | some f => return UInt16.ofNat f
/-- scalar.go:335-342 `GetUint32`. -/
def getUint32 (s : St) (fn : Nat) : Res UInt32 := do
  match ← getFinal40 s fn with
  | none => return 0
  | some f => return UInt32.ofNat f
/-- scalar.go:345-352 `GetUint64`. -/
def getUint64 (s : St) (fn : Nat) : Res UInt64 := do
  match ← getWide s fn with
  | none => return 0
  | some f => return UInt64.ofNat f
/-- scalar.go:355-362 `GetFloat32`. -/
def getFloat32 (s : St) (fn : Nat) : Res F32 := do
  match ← getFinal40 s fn with
  | none => return ⟨0⟩
  | some f => return ⟨UInt32.ofNat f⟩
/-- scalar.go:365-373 `GetFloat64`. -/
def getFloat64 (s : St) (fn : Nat) : Res F64 := do
  match ← getWide s fn with
  | none => return ⟨0⟩
  | some f => return ⟨UInt64.ofNat f⟩

/-- bytes.go:105-121 `GetBytes` (nil and empty are both `[]`; `GetString`, bytes.go:95-101, and
`GetBytesCopy`, 124-132, return the same bytes). -/
def getBytes (s : St) (fn : Nat) : Res Bytes := do
  let ((offset, size), s) ← s.fieldOffset fn
  if size = 0 then return []
  else
    let h ← s.seg.sub offset (offset + HeaderSize)
    let (_, _, dataLen) ← Res.ofOption (decodeHeader h)
    if dataLen = 0 then return []
    else s.seg.sub (offset + HeaderSize) (offset + HeaderSize + dataLen)

/-- bytes.go:185-202 `GetNestedStruct` for a child schema of `m` fields; nil is `none`. The child
is a view of the parent's bytes; its spare capacity is the rest of the parent's array. -/
def getNestedStruct (s : St) (fn m : Nat) : Res (Option St) := do
  let ((offset, size), s) ← s.fieldOffset fn
  if size = 0 then return none
  else
    let d ← s.seg.sub offset (offset + size)
    let child : St := ⟨⟨d, (s.seg.data ++ s.seg.spare).drop (offset + size)⟩,
      List.replicate m Entry.zero, false, false, none, false, []⟩
    let child ← child.parseFieldIndex
    return some child

end Claw
