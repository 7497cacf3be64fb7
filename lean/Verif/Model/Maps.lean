import Verif.Model.Any

/-!
# Maps

Models `/repo/clawc/languages/go/segment/maps.go`: a map is two parallel slices with the keys in
order, searched by `slices.BinarySearchFunc`; `SyncToSegment` writes it, `ParseMapFromSegment` reads it.
Left out: maps as map values (maps.go:378-385 encodes them as nothing, and `GetMapScalar` does not
admit them), recording, and the paths for values that are not of the generated types (maps.go:333-341,
354-370, 497-510, 528-550). A struct value is the bytes of its segment.
-/

namespace Claw

/-! ### Keys -/

/-- field.go:66-75 `IsValidMapKeyType`: the key types. -/
inductive KTy where
  | bool | str | num (k : NTy)
  deriving DecidableEq, Repr

/-- The Go type of a key. A string is its bytes. -/
@[reducible] def KTy.Val : KTy → Type
  | .bool => Bool | .str => Bytes | .num k => k.Val

/-- field.go:12-46: the type number of a number. -/
def NTy.scalarFt : NTy → Nat
  | .i8 => FTInt8 | .i16 => FTInt16 | .i32 => FTInt32 | .i64 => FTInt64
  | .u8 => FTUint8 | .u16 => FTUint16 | .u32 => FTUint32 | .u64 => FTUint64
  | .f32 => FTFloat32 | .f64 => FTFloat64

/-- The type number of a key type. -/
def KTy.ft : KTy → Nat
  | .bool => FTBool | .str => FTString | .num k => k.scalarFt

/-- The magnitude of an IEEE number with `p` fraction bits, exponent field `e` and fraction `m`, in
units of the smallest positive number. -/
def ieeeMag (p e m : Nat) : Nat := if e = 0 then m else (2 ^ p + m) * 2 ^ (e - 1)

/-- IEEE-754: exponent all ones and a fraction. -/
def F32.isNaN (x : F32) : Bool :=
  x.bits.toNat % 2 ^ 31 / 2 ^ 23 == 255 && x.bits.toNat % 2 ^ 23 != 0
def F64.isNaN (x : F64) : Bool :=
  x.bits.toNat % 2 ^ 63 / 2 ^ 52 == 2047 && x.bits.toNat % 2 ^ 52 != 0

/-- The number an IEEE-754 pattern that is not a NaN stands for, in units of the smallest positive
number; infinity counts as the number one exponent beyond the largest. -/
def F32.value (x : F32) : Int :=
  let mag := ieeeMag 23 (x.bits.toNat % 2 ^ 31 / 2 ^ 23) (x.bits.toNat % 2 ^ 23)
  if x.bits.toNat < 2 ^ 31 then mag else -(mag : Int)
def F64.value (x : F64) : Int :=
  let mag := ieeeMag 52 (x.bits.toNat % 2 ^ 63 / 2 ^ 52) (x.bits.toNat % 2 ^ 52)
  if x.bits.toNat < 2 ^ 63 then mag else -(mag : Int)

/-- Go's `cmp.Compare` on numbers: a NaN equals a NaN and is before all numbers, then `<` and `>`. -/
def goCompare (xNaN yNaN : Bool) (x y : Int) : Int :=
  if xNaN then (if yNaN then 0 else -1)
  else if yNaN then 1
  else if x < y then -1
  else if x > y then 1
  else 0

/-- Go's `cmp.Compare` on strings: byte by byte. -/
def goCompareStr : Bytes → Bytes → Int
  | [], [] => 0
  | [], _ :: _ => -1
  | _ :: _, [] => 1
  | a :: as, b :: bs => if a < b then -1 else if b < a then 1 else goCompareStr as bs

/-- maps.go:202-222: numbers. -/
def NTy.compare : (k : NTy) → k.Val → k.Val → Int
  | .i8, a, b => goCompare false false a.toInt b.toInt
  | .i16, a, b => goCompare false false a.toInt b.toInt
  | .i32, a, b => goCompare false false a.toInt b.toInt
  | .i64, a, b => goCompare false false a.toInt b.toInt
  | .u8, a, b => goCompare false false a.toNat b.toNat
  | .u16, a, b => goCompare false false a.toNat b.toNat
  | .u32, a, b => goCompare false false a.toNat b.toNat
  | .u64, a, b => goCompare false false a.toNat b.toNat
  | .f32, a, b => goCompare (F32.isNaN a) (F32.isNaN b) (F32.value a) (F32.value b)
  | .f64, a, b => goCompare (F64.isNaN a) (F64.isNaN b) (F64.value a) (F64.value b)

/-- maps.go:189-222 `compareKeys` (lines 223-247, for named types, do the same). -/
def KTy.compare : (t : KTy) → t.Val → t.Val → Int
  | .str, a, b => goCompareStr a b
  | .bool, a, b => if a = b then 0 else if !a then -1 else 1
  | .num k, a, b => k.compare a b

/-! ### The map object -/

/-- maps.go:35-44 `Maps`. -/
structure GoMap (K V : Type) where
  keys : List K
  vals : List V
  dirty : Bool
  deriving DecidableEq, Repr

/-- Go's `slices.BinarySearchFunc`, the loop: `cmp(x[h], target) < 0` moves `i` behind `h`, otherwise
`j` comes down to `h`. `none` is an index panic, or more than `fuel` turns (`bsLoop_ok`: neither
happens). -/
def bsLoop {K : Type} (cmp : K → K → Int) (x : List K) (target : K) : Nat → Nat → Nat → Option Nat
  | 0, i, j => if i < j then none else some i
  | fuel + 1, i, j =>
    if i < j then
      let h := (i + j) / 2
      match x[h]? with
      | none => none
      | some y => if cmp y target < 0 then bsLoop cmp x target fuel (h + 1) j
        else bsLoop cmp x target fuel i h
    else some i

/-- Go's `slices.BinarySearchFunc`: position and whether the target is there. -/
def binarySearch {K : Type} (cmp : K → K → Int) (x : List K) (target : K) : Option (Nat × Bool) :=
  match bsLoop cmp x target x.length 0 x.length with
  | none => none
  | some i =>
    if i < x.length then
      match x[i]? with
      | none => none
      | some y => some (i, cmp y target == 0)
    else some (i, false)

/-- Go's `slices.Insert(x, i, v)`. -/
def goInsert {α : Type} (x : List α) (i : Nat) (v : α) : Option (List α) :=
  if i ≤ x.length then some (x.take i ++ v :: x.drop i) else none

/-- Go's `slices.Delete(x, i, i+1)`. -/
def goDelete {α : Type} (x : List α) (i : Nat) : Option (List α) :=
  if i + 1 ≤ x.length then some (x.take i ++ x.drop (i + 1)) else none

namespace GoMap
variable {K V : Type}

/-- maps.go:52-65 `NewMaps`. -/
def new : GoMap K V := ⟨[], [], false⟩

/-- maps.go:174-180 `findKey`; `-1` is `none`. -/
def findKey (cmp : K → K → Int) (m : GoMap K V) (key : K) : Res (Option Nat) := do
  let (idx, found) ← Res.ofOption (binarySearch cmp m.keys key)
  return if found then some idx else none

/-- maps.go:183-186 `findInsertPos`. -/
def findInsertPos (cmp : K → K → Int) (m : GoMap K V) (key : K) : Res Nat := do
  let (idx, _) ← Res.ofOption (binarySearch cmp m.keys key)
  return idx

/-- maps.go:68-70 `Len`. -/
def len (m : GoMap K V) : Nat := m.keys.length

/-- maps.go:73-80 `Get`; `none` is `(zero, false)`. -/
def get (cmp : K → K → Int) (m : GoMap K V) (key : K) : Res (Option V) := do
  match ← m.findKey cmp key with
  | some idx =>
    let v ← Res.ofOption m.vals[idx]?
    return some v
  | none => return none

/-- maps.go:83-95 `Set`. -/
def set (cmp : K → K → Int) (m : GoMap K V) (key : K) (value : V) : Res (GoMap K V) := do
  match ← m.findKey cmp key with
  | some idx =>
    if idx < m.vals.length then return { m with vals := m.vals.set idx value, dirty := true } else .panic
  | none =>
    let insertPos ← m.findInsertPos cmp key
    let keys ← Res.ofOption (goInsert m.keys insertPos key)
    let vals ← Res.ofOption (goInsert m.vals insertPos value)
    return ⟨keys, vals, true⟩

/-- maps.go:107-112 `Delete`. -/
def delete (cmp : K → K → Int) (m : GoMap K V) (key : K) : Res (GoMap K V) := do
  match ← m.findKey cmp key with
  | some idx =>
    let keys ← Res.ofOption (goDelete m.keys idx)
    let vals ← Res.ofOption (goDelete m.vals idx)
    return ⟨keys, vals, true⟩
  | none => return m

/-- maps.go:126-128 `Has`. -/
def has (cmp : K → K → Int) (m : GoMap K V) (key : K) : Res Bool := do
  match ← m.findKey cmp key with
  | some _ => return true
  | none => return false

/-- maps.go:156-160 `Clear`. -/
def clear (m : GoMap K V) : GoMap K V :=
  if m.keys.length > 0 then ⟨[], [], true⟩ else m

end GoMap

/-- One call of a client that changes a map. -/
inductive MOp (K V : Type) where
  | set (key : K) (value : V)
  | delete (key : K)
  | clear

/-- Run one call. -/
def MOp.run {K V : Type} (cmp : K → K → Int) : MOp K V → GoMap K V → Res (GoMap K V)
  | .set k v, m => m.set cmp k v
  | .delete k, m => m.delete cmp k
  | .clear, m => .ok m.clear

/-- Run a sequence of calls. -/
def runMOps {K V : Type} (cmp : K → K → Int) : List (MOp K V) → GoMap K V → Res (GoMap K V)
  | [], m => .ok m
  | op :: ops, m => do
    let m ← op.run cmp m
    runMOps cmp ops m

/-! ### Encoding -/

/-- field.go:79-88 `IsValidMapValueType` without maps; a struct type has `m` fields. -/
inductive VTy where
  | bool | str | bytes | num (k : NTy) | struct (m : Nat) | any | listAny
  deriving DecidableEq, Repr

/-- The Go type of a value. A struct is the bytes of its segment; a nil `*MapAnyValue` is `none`. -/
@[reducible] def VTy.Val : VTy → Type
  | .bool => Bool | .str => Bytes | .bytes => Bytes | .num k => k.Val | .struct _ => Bytes
  | .any => Option AnyVal | .listAny => List AnyVal

def VTy.ft : VTy → Nat
  | .bool => FTBool | .str => FTString | .bytes => FTBytes | .num k => k.scalarFt
  | .struct _ => FTStruct | .any => FTAny | .listAny => FTListAny

/-- maps.go:296-312 `keySize`. -/
def KTy.keySize : (t : KTy) → t.Val → Nat
  | .str, v => 4 + v.length | .bool, _ => 1 | .num k, _ => k.size

/-- maps.go:315-392 `valueSize`. -/
def VTy.valueSize : (t : VTy) → t.Val → Nat
  | .str, v => 4 + v.length | .bytes, v => 4 + v.length | .bool, _ => 1 | .num k, _ => k.size
  | .struct _, v => v.length
  | .any, none => 0
  | .any, some a => AnyHashSize + a.data.length
  | .listAny, items => items.foldl (fun size item => size + (AnyHashSize + item.data.length)) 4

/-- The text or bytes case of `encodeKeyAt`/`encodeValueAt` (maps.go:398-402, 448-457). -/
def encodeTextAt (buf : Bytes) (off : Nat) (v : Bytes) : Option (Bytes × Nat) := do
  let buf ← storeAt buf off (putLE 4 v.length)
  let buf ← copyAt buf (off + 4) v
  return (buf, 4 + v.length)

/-- The number cases (maps.go:410-440, 465-495). -/
def encodeNumAt (k : NTy) (buf : Bytes) (off : Nat) (v : k.Val) : Option (Bytes × Nat) := do
  let buf ← storeAt buf off (putLE k.size (k.bits v))
  return (buf, k.size)

/-- The bool case (maps.go:403-409, 458-464). -/
def encodeBoolAt (buf : Bytes) (off : Nat) (v : Bool) : Option (Bytes × Nat) := do
  let buf ← storeAt buf off [if v then 1 else 0]
  return (buf, 1)

/-- maps.go:395-442 `encodeKeyAt`. -/
def KTy.encodeAt : (t : KTy) → Bytes → Nat → t.Val → Option (Bytes × Nat)
  | .str, buf, off, v => encodeTextAt buf off v
  | .bool, buf, off, v => encodeBoolAt buf off v
  | .num k, buf, off, v => encodeNumAt k buf off v

/-- One Any of maps.go:508-511 and 529-534: hash (`copy(buf[off:off+16], hash)`), then the data. -/
def encodeAnyAt (buf : Bytes) (off : Nat) (a : AnyVal) : Option (Bytes × Nat) := do
  let buf ← storeAt buf off (a.typeHash.take AnyHashSize)
  let buf ← copyAt buf (off + AnyHashSize) a.data
  return (buf, off + AnyHashSize + a.data.length)

/-- maps.go:527-534: the items of a `[]Any`, from position `pos`. -/
def encodeAnysAt : Bytes → Nat → List AnyVal → Option (Bytes × Nat)
  | buf, pos, [] => some (buf, pos)
  | buf, pos, a :: as => do
    let (buf, pos) ← encodeAnyAt buf pos a
    encodeAnysAt buf pos as

/-- maps.go:445-567 `encodeValueAt`. -/
def VTy.encodeAt : (t : VTy) → Bytes → Nat → t.Val → Option (Bytes × Nat)
  | .str, buf, off, v => encodeTextAt buf off v
  | .bytes, buf, off, v => encodeTextAt buf off v
  | .bool, buf, off, v => encodeBoolAt buf off v
  | .num k, buf, off, v => encodeNumAt k buf off v
  | .struct _, buf, off, v => do
    let buf ← copyAt buf off v
    return (buf, v.length)
  | .any, buf, _, none => some (buf, 0)
  | .any, buf, off, some a => do
    let (buf, _) ← encodeAnyAt buf off a
    return (buf, AnyHashSize + a.data.length)
  | .listAny, buf, off, items => do
    let buf ← storeAt buf off (putLE 4 items.length)
    let (buf, pos) ← encodeAnysAt buf (off + 4) items
    return (buf, pos - off)

/-- maps.go:286-293 `calculateDataSize`. -/
def mapDataSize (kt : KTy) (vt : VTy) : List kt.Val → List vt.Val → Nat
  | k :: ks, v :: vs => kt.keySize k + vt.valueSize v + mapDataSize kt vt ks vs
  | _, _ => 0

/-- maps.go:274-278: write the entries. Keys without a value would be an index panic. -/
def encodeEntries (kt : KTy) (vt : VTy) : Bytes → Nat → List kt.Val → List vt.Val → Option Bytes
  | buf, _, [], _ => some buf
  | _, _, _ :: _, [] => none
  | buf, off, k :: ks, v :: vs => do
    let (buf, n) ← kt.encodeAt buf off k
    let off := off + n
    let (buf, n) ← vt.encodeAt buf off v
    encodeEntries kt vt buf (off + n) ks vs

/-- maps.go:262-278: the field. -/
def mapBlob (kt : KTy) (vt : VTy) (fn : Nat) (keys : List kt.Val) (vals : List vt.Val) : Option Bytes := do
  let dataSize := mapDataSize kt vt keys vals
  let totalSize := HeaderSize + dataSize + paddingNeeded dataSize
  let buf ← encodeMapHeaderAt (zeros totalSize) fn kt.ft vt.ft (totalSize % 2 ^ 32)
  encodeEntries kt vt buf HeaderSize keys vals

/-- maps.go:251-283 `SyncToSegment`. -/
def syncMap (kt : KTy) (vt : VTy) (s : St) (fn : Nat) (m : GoMap kt.Val vt.Val) :
    Res (St × GoMap kt.Val vt.Val) := do
  if !m.dirty then return (s, m)
  if m.keys.length = 0 then
    let s ← s.removeField fn
    return (s, { m with dirty := false })
  let b ← Res.ofOption (mapBlob kt vt fn m.keys m.vals)
  let s ← s.insertField fn b
  return (s, { m with dirty := false })

/-! ### Decoding -/

/-- The text or bytes case of `decodeKey`/`decodeValue` (maps.go:631-640, 754-774). -/
def decodeText (d : Bytes) : Option (Bytes × Nat) :=
  if d.length < 4 then none
  else
    let n := getLE (d.take 4)
    if d.length < 4 + n then none else some (slice d 4 (4 + n), 4 + n)

/-- The number cases (maps.go:644-700, 778-834). -/
def decodeNum (k : NTy) (d : Bytes) : Option (k.Val × Nat) :=
  if d.length < k.size then none else some (k.ofBits (getLE (d.take k.size)), k.size)

/-- The bool case (maps.go:641-643, 775-777). -/
def decodeBool (d : Bytes) : Option (Bool × Nat) :=
  match d with
  | [] => none
  | b :: _ => some (b != 0, 1)

/-- maps.go:621-741 `decodeKey`; `none` is a consumed length of 0. -/
def KTy.decode : (t : KTy) → Bytes → Option (t.Val × Nat)
  | .str, d => if d.length = 0 then none else decodeText d
  | .bool, d => decodeBool d
  | .num k, d => if d.length = 0 then none else decodeNum k d

/-- maps.go:885-905: the items of a `[]Any` value from position `pos`; the loop stops when the data end. -/
def decodeAnys (d : Bytes) : Nat → Nat → List AnyVal × Nat
  | 0, pos => ([], pos)
  | n + 1, pos =>
    if d.length < pos + AnyHashSize + HeaderSize then ([], pos)
    else
      let hash := slice d pos (pos + AnyHashSize)
      let pos := pos + AnyHashSize
      match decodeHeader (slice d pos (pos + HeaderSize)) with
      | none => ([], pos)
      | some (_, _, structSize) =>
        if d.length < pos + structSize then ([], pos)
        else
          let (items, e) := decodeAnys d n (pos + structSize)
          (⟨hash, slice d pos (pos + structSize)⟩ :: items, e)

/-- maps.go:744-965 `decodeValue`; `none` is a consumed length of 0. The size of an Any whose header says 0 is 16. -/
def VTy.decode : (t : VTy) → Bytes → Res (Option (t.Val × Nat))
  | .str, d => .ok (if d.length = 0 then none else decodeText d)
  | .bytes, d => .ok (if d.length = 0 then none else decodeText d)
  | .bool, d => .ok (decodeBool d)
  | .num k, d => .ok (if d.length = 0 then none else decodeNum k d)
  | .struct m, d =>
    if d.length < HeaderSize then .ok none
    else
      match decodeHeader (d.take HeaderSize) with
      | none => .panic
      | some (_, _, structSize) =>
        if structSize < HeaderSize ∨ d.length < structSize then .ok none
        else do
          let _ ← parseLoop HeaderSize ((d.take structSize).drop HeaderSize) (List.replicate m Entry.zero)
          return some (d.take structSize, structSize)
  | .any, d =>
    if d.length < AnyHashSize + HeaderSize then .ok none
    else
      match decodeHeader (slice d AnyHashSize (AnyHashSize + HeaderSize)) with
      | none => .panic
      | some (_, _, structSize) =>
        if d.length < AnyHashSize + structSize then .ok none
        else .ok (some (some ⟨d.take AnyHashSize, slice d AnyHashSize (AnyHashSize + structSize)⟩,
          AnyHashSize + structSize))
  | .listAny, d =>
    if d.length < 4 then .ok none
    else .ok (some (decodeAnys d (getLE (d.take 4)) 4))

/-- maps.go:599-615: the loop of `ParseMapFromSegment` on the bytes not yet read. Every turn consumes
a byte, so the length is enough fuel. -/
def parseMapFuel (kt : KTy) (vt : VTy) : Nat → Bytes → Res (List kt.Val × List vt.Val)
  | 0, _ => .ok ([], [])
  | fuel + 1, d =>
    if 0 < d.length then
      match kt.decode d with
      | none => .ok ([], [])
      | some (key, n) => do
        match ← vt.decode (d.drop n) with
        | none => return ([], [])
        | some (value, n') =>
          let (ks, vs) ← parseMapFuel kt vt fuel (d.drop (n + n'))
          return (key :: ks, value :: vs)
    else .ok ([], [])

/-- maps.go:589-618 `ParseMapFromSegment`. -/
def parseMap (kt : KTy) (vt : VTy) (data : Bytes) : Res (List kt.Val × List vt.Val) :=
  if data.length < HeaderSize then .ok ([], [])
  else parseMapFuel kt vt (data.length - HeaderSize) (data.drop HeaderSize)

/-- maps.go:968-1097 `GetMapScalar`, `GetMapStruct`, `GetMapAny`, `GetMapListAny` without the cache;
nil is `none`. -/
def getMap (kt : KTy) (vt : VTy) (s : St) (fn : Nat) : Res (Option (GoMap kt.Val vt.Val)) := do
  let ((offset, size), s) ← s.fieldOffset fn
  if size = 0 then return none
  else
    let d ← s.seg.sub offset (offset + size)
    let (ks, vs) ← parseMap kt vt d
    return some ⟨ks, vs, false⟩

end Claw
