import Verif.Model.Struct

/-!
# Lists: storage, encoding, decoding

Models `/repo/clawc/languages/go/segment/lists.go` and the list part of `getters.go`. A list is
modelled by its items; the moment at which a list is written into its struct (`SyncToSegment`,
`dirtyLists`) is the subject of `Verif.Model.ListCache`.
-/

namespace Claw

/-! ### Bools -/

/-- lists.go:171-178: set the bit of every true item, items numbered from `i`; `none` would be an
index panic. -/
def packBools : Bytes → Nat → List Bool → Option Bytes
  | d, _, [] => some d
  | d, i, true :: bs =>
    match d[8 + i / 8]? with
    | some x => packBools (d.set (8 + i / 8) (x ||| (1 <<< UInt8.ofNat (i % 8)))) (i + 1) bs
    | none => none
  | d, i, false :: bs => packBools d (i + 1) bs

/-- lists.go:161-178: the field written by `(*Bools).SyncToSegment`. -/
def boolsBlob (fn : Nat) (items : List Bool) : Option Bytes :=
  let numBytes := (items.length + 7) / 8
  let totalSize := HeaderSize + numBytes + paddingNeeded numBytes
  match encodeHeaderAt (zeros totalSize) fn FTListBools items.length with
  | none => none
  | some d => packBools d 0 items

/-- getters.go:37-44: unpack `n` bits starting with item `i`; reading past the data panics. -/
def unpackBools (data : Bytes) : Nat → Nat → Res (List Bool)
  | _, 0 => .ok []
  | i, n + 1 =>
    match data[8 + i / 8]? with
    | none => .panic
    | some x => do
      let rest ← unpackBools data (i + 1) n
      return ((x &&& (1 <<< UInt8.ofNat (i % 8))) != 0) :: rest

/-- The bytes of a present field, `s.seg.data[offset : offset+size]`, and `none` when absent
(getters.go:21-29 and the same lines in the other list getters). -/
def fieldBytes (s : St) (fn : Nat) : Res (Option Bytes) := do
  let ((offset, size), s) ← s.fieldOffset fn
  if size = 0 then return none
  else
    let d ← s.seg.sub offset (offset + size)
    if d.length < HeaderSize then return none else return some d

/-- getters.go:15-54 `GetListBools` without the cache; `none` is nil. -/
def getListBools (s : St) (fn : Nat) : Res (Option (List Bool)) := do
  match ← fieldBytes s fn with
  | none => return none
  | some data =>
    let (_, _, count) ← Res.ofOption (decodeHeader data)
    let items ← unpackBools data 0 count
    return some items

/-! ### Numbers -/

/-- The item types of `Numbers[I]`. -/
inductive NTy where
  | i8 | i16 | i32 | i64 | u8 | u16 | u32 | u64 | f32 | f64
  deriving DecidableEq, Repr

/-- The Go type. -/
@[reducible] def NTy.Val : NTy → Type
  | .i8 => Int8 | .i16 => Int16 | .i32 => Int32 | .i64 => Int64
  | .u8 => UInt8 | .u16 => UInt16 | .u32 => UInt32 | .u64 => UInt64
  | .f32 => F32 | .f64 => F64

/-- lists.go:286-290 `itemSize`. -/
def NTy.size : NTy → Nat
  | .i8 | .u8 => 1
  | .i16 | .u16 => 2
  | .i32 | .u32 | .f32 => 4
  | .i64 | .u64 | .f64 => 8

/-- lists.go:255-281, 577-604 `fieldType`. -/
def NTy.ft : NTy → Nat
  | .i8 => FTListInt8 | .i16 => FTListInt16 | .i32 => FTListInt32 | .i64 => FTListInt64
  | .u8 => FTListUint8 | .u16 => FTListUint16 | .u32 => FTListUint32 | .u64 => FTListUint64
  | .f32 => FTListFloat32 | .f64 => FTListFloat64

/-- lists.go:322-345 (and 418-440, 468-491): the unsigned number stored for an item. -/
def NTy.bits : (k : NTy) → k.Val → Nat
  | .i8, v => v.toUInt8.toNat | .i16, v => v.toUInt16.toNat
  | .i32, v => v.toUInt32.toNat | .i64, v => v.toUInt64.toNat
  | .u8, v => v.toNat | .u16, v => v.toNat | .u32, v => v.toNat | .u64, v => v.toNat
  | .f32, v => v.bits.toNat | .f64, v => v.bits.toNat

/-- lists.go:378-401: the item for the stored number. -/
def NTy.ofBits : (k : NTy) → Nat → k.Val
  | .i8, n => (UInt8.ofNat n).toInt8 | .i16, n => (UInt16.ofNat n).toInt16
  | .i32, n => (UInt32.ofNat n).toInt32 | .i64, n => (UInt64.ofNat n).toInt64
  | .u8, n => UInt8.ofNat n | .u16, n => UInt16.ofNat n
  | .u32, n => UInt32.ofNat n | .u64, n => UInt64.ofNat n
  | .f32, n => ⟨UInt32.ofNat n⟩ | .f64, n => ⟨UInt64.ofNat n⟩

/-- lists.go:188-195 `Numbers`: the item bytes and the item count. -/
structure Nums where
  data : Bytes
  len : Nat
  deriving DecidableEq, Repr

namespace Nums

/-- lists.go:247-252: a new list. -/
def empty : Nums := ⟨[], 0⟩

/-- lists.go:316-345: grow by one item and store it at the old end (`PutUintN` at `data[offset:]`). -/
def appendLoop (k : NTy) : Bytes → List k.Val → Bytes
  | d, [] => d
  | d, v :: vs =>
    let offset := d.length
    let d := d ++ zeros k.size
    appendLoop k (goCopy d offset (putLE k.size (k.bits v))) vs

/-- lists.go:297-349 `Append` (capacity growth is invisible). -/
def append (k : NTy) (n : Nums) (vs : List k.Val) : Nums :=
  ⟨appendLoop k n.data vs, n.len + vs.length⟩

/-- lists.go:366-404 `Get`. An index is never negative here. -/
def get (k : NTy) (n : Nums) (i : Nat) : Res k.Val :=
  if i ≥ n.len then .panic
  else
    let offset := i * k.size
    let r := n.data.drop offset
    if r.length < k.size then .panic
    else .ok (k.ofBits (getLE (r.take k.size)))

/-- lists.go:407-441 `Set`. -/
def set (k : NTy) (n : Nums) (i : Nat) (v : k.Val) : Res Nums :=
  if i ≥ n.len then .panic
  else
    let offset := i * k.size
    if (n.data.drop offset).length < k.size then .panic
    else .ok { n with data := goCopy n.data offset (putLE k.size (k.bits v)) }

/-- lists.go:466-491: store the items one after the other, numbered from `i`. -/
def setAllLoop (k : NTy) : Bytes → Nat → List k.Val → Bytes
  | d, _, [] => d
  | d, i, v :: vs => setAllLoop k (goCopy d (i * k.size) (putLE k.size (k.bits v))) (i + 1) vs

/-- lists.go:456-492 `SetAll`. -/
def setAll (k : NTy) (vs : List k.Val) : Nums :=
  ⟨setAllLoop k (zeros (vs.length * k.size)) 0 vs, vs.length⟩

/-- lists.go:534-541 `Slice`: all items in order. -/
def sliceFrom (k : NTy) (n : Nums) : Nat → Nat → Res (List k.Val)
  | _, 0 => .ok []
  | i, c + 1 => do
    let v ← n.get k i
    let vs ← sliceFrom k n (i + 1) c
    return v :: vs

def slice (k : NTy) (n : Nums) : Res (List k.Val) := sliceFrom k n 0 n.len

/-- lists.go:556-570: the field written by `(*Numbers).SyncToSegment`. -/
def blob (k : NTy) (fn : Nat) (n : Nums) : Option Bytes :=
  let totalSize := HeaderSize + n.data.length
  match encodeHeaderAt (zeros totalSize) fn k.ft totalSize with
  | none => none
  | some d => some (goCopy d 8 n.data)

end Nums

/-- getters.go:58-139 `GetListNumbers` without the cache; lists.go:199-224 `NewNumbers` parses the
same way. The size comes from the header of the field; Go's division truncates towards zero, so a
size below 8 is harmless only when the difference is smaller than one item, otherwise
`make([]byte, dataLen)` panics. `data[HeaderSize:HeaderSize+dataLen]` may extend to the capacity. -/
def getListNums (k : NTy) (s : St) (fn : Nat) : Res (Option Nums) := do
  let ((offset, size), s) ← s.fieldOffset fn
  if size = 0 then return none
  else
    let data ← s.seg.sub offset (offset + size)
    if data.length < HeaderSize then return none
    else
      let (_, _, totalSize) ← Res.ofOption (decodeHeader data)
      if totalSize < HeaderSize then
        if (HeaderSize - totalSize) / k.size = 0 then return some ⟨[], 0⟩ else .panic
      else
        let dataLen := (totalSize - HeaderSize) / k.size * k.size
        let d ← s.seg.sub (offset + HeaderSize) (offset + HeaderSize + dataLen)
        return some ⟨d, dataLen / k.size⟩

/-! ### Strings and byte slices -/

/-- lists.go:774-784: write length and data of each item. -/
def packItems : Bytes → Nat → List Bytes → Bytes
  | d, _, [] => d
  | d, offset, x :: xs =>
    let d := goCopy d offset (putLE 4 x.length)
    let d := goCopy d (offset + 4) x
    packItems d (offset + 4 + x.length) xs

/-- lists.go:760-763. -/
def itemsSize (items : List Bytes) : Nat := (items.map (fun x => 4 + x.length)).sum

/-- lists.go:760-784 (strings) and 955-977 (bytes): the field written by `SyncToSegment`. -/
def itemsBlob (fn ft : Nat) (items : List Bytes) : Option Bytes :=
  let dataSize := itemsSize items
  let totalSize := HeaderSize + dataSize + paddingNeeded dataSize
  match encodeHeaderAt (zeros totalSize) fn ft totalSize with
  | none => none
  | some d => some (packItems d 8 items)

/-- getters.go:162-174 and 207-221: the item loop on the bytes that remain. Every turn consumes at
least 4 bytes, so the length is enough fuel (`parseItems_eq`). -/
def parseItemsF : Nat → Bytes → List Bytes
  | 0, _ => []
  | fuel + 1, rest =>
    if 4 ≤ rest.length then
      let strLen := getLE (rest.take 4)
      let rest := rest.drop 4
      if strLen = 0 then [] :: parseItemsF fuel rest
      else if strLen ≤ rest.length then rest.take strLen :: parseItemsF fuel (rest.drop strLen)
      else []
    else []

def parseItems (rest : Bytes) : List Bytes := parseItemsF rest.length rest

/-- getters.go:143-184 `GetListStrings` and 188-231 `GetListBytes` without the cache (a nil item and
an empty one are both `[]`). -/
def getListItems (s : St) (fn : Nat) : Res (Option (List Bytes)) := do
  match ← fieldBytes s fn with
  | none => return none
  | some data => return some (parseItems (data.drop HeaderSize))

/-! ### Structs -/

/-- lists.go:1224-1232: copy every item's segment, with the field number of its header replaced by
its index. -/
def packStructs : Bytes → Nat → Nat → List Bytes → Bytes
  | d, _, _, [] => d
  | d, offset, i, x :: xs =>
    packStructs (goCopy d offset (encodeHeaderFieldNum x i)) (offset + x.length) (i + 1) xs

/-- lists.go:1210-1232: the field written by `(*Structs).SyncToSegment`; `items` are the segments of
the items. -/
def structsBlob (fn : Nat) (items : List Bytes) : Option Bytes :=
  let dataSize := (items.map List.length).sum
  let totalSize := HeaderSize + dataSize
  match encodeHeaderAt (zeros totalSize) fn FTListStructs totalSize with
  | none => none
  | some d => some (packStructs d 8 0 items)

/-- lists.go:1027-1051 `parseFromSegment`: views of the items, on the bytes that remain of the field
(`extra` is what lies behind the field in the backing array). An item consumes at least 8 bytes. -/
def parseStructsF (m : Nat) (extra : Bytes) : Nat → Bytes → Res (List St)
  | 0, _ => .ok []
  | fuel + 1, rest =>
    if HeaderSize ≤ rest.length then
      match decodeHeader rest with
      | none => .ok []
      | some (_, fieldType, structSize) =>
        if fieldType ≠ FTStruct then .ok []
        else if structSize < HeaderSize ∨ structSize > rest.length then .ok []
        else do
          let item : St := ⟨⟨rest.take structSize, rest.drop structSize ++ extra⟩,
            List.replicate m Entry.zero, false, false, none, false, []⟩
          let item ← item.parseFieldIndex
          let items ← parseStructsF m extra fuel (rest.drop structSize)
          return item :: items
    else .ok []

/-- getters.go:236-249 `GetListStructs` with lists.go:1000-1017 `NewStructs`, without the cache. -/
def getListStructs (s : St) (fn m : Nat) : Res (Option (List St)) := do
  let ((offset, size), s) ← s.fieldOffset fn
  if size = 0 then return none
  else if size > HeaderSize then
    let d ← s.seg.sub offset (offset + size)
    let items ← parseStructsF m ((s.seg.data ++ s.seg.spare).drop (offset + size)) d.length
      (d.drop HeaderSize)
    return some items
  else return some []

/-! ### Writing a list -/

/-- The effect on the struct of `SetAll` (records the replacement) followed by `SyncToSegment`:
an empty list removes the field, otherwise the encoded list is inserted. Unlike the scalar setters
this does not call `markFieldSet`. -/
def storeList (s : St) (fn : Nat) (isEmpty : Bool) (blob : Option Bytes) (recData : Bytes) : Res St := do
  let s := s.recordOp ⟨fn, OpListReplace, -1, recData⟩
  if isEmpty then s.removeField fn
  else
    let b ← Res.ofOption blob
    s.insertField fn b

/-- lists.go:92-112 and 150-183. -/
def setListBools (s : St) (fn : Nat) (v : List Bool) : Res St :=
  storeList s fn (v.length == 0) (boolsBlob fn v) (v.map fun b => if b then 1 else 0)

/-- lists.go:456-505 and 545-575. -/
def setListNums (k : NTy) (s : St) (fn : Nat) (v : List k.Val) : Res St :=
  let n := Nums.setAll k v
  storeList s fn (n.len == 0) (n.blob k fn) n.data

/-- lists.go:694-711 and 891-908 `encodeStringsForPatch`, `encodeBytesForPatch`. -/
def patchItems (v : List Bytes) : Bytes :=
  goCopy (zeros (4 + itemsSize v)) 0 (putLE 4 v.length) |> fun d => packItems d 4 v

/-- lists.go:675-690, 749-791 (strings) and 872-887, 942-986 (bytes). -/
def setListItems (ft : Nat) (s : St) (fn : Nat) (v : List Bytes) : Res St :=
  storeList s fn (v.length == 0) (itemsBlob fn ft v) (patchItems v)

/-- lists.go:1135-1147: copy the segments one after the other. -/
def copyStructs : Bytes → Nat → List Bytes → Bytes
  | d, _, [] => d
  | d, offset, x :: xs => copyStructs (goCopy d offset x) (offset + x.length) xs

/-- lists.go:1131-1149 `encodeStructsForPatch`. -/
def patchStructs (items : List Bytes) : Bytes :=
  goCopy (zeros (4 + (items.map List.length).sum)) 0 (putLE 4 items.length)
    |> fun d => copyStructs d 4 items

/-- lists.go:1111-1127 and 1190-1238: `SetAll` with new items whose segments are `items`. Reading
what the field held before (`NewStructs`) has no effect on the struct and is left out. -/
def setListStructs (s : St) (fn : Nat) (items : List Bytes) : Res St :=
  storeList s fn (items.length == 0) (structsBlob fn items) (patchStructs items)

end Claw
