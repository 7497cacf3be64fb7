import Verif.Model.ListCache

/-!
# Reflection

Models `/repo/languages/go/reflect/internal/value/{value,valueof,impl}.go` and
`/repo/languages/go/reflect/enums/enums.go`: values, and reading, writing, clearing and printing the
fields of a struct through its description. The struct is an `LSt`: the bytes and the cache of list
objects, because reading a list through reflection goes through that cache.

Simplified: recording is off; the cache of struct lists is left out (`Verif.Model.ListCache`); a map object is
only a marker, since no struct ever hands one out; the registry of packages is a function; `fmt.Sprint`
and the conversions between float32 and float64 are parameters.
-/

namespace Claw.Refl

/-- Go's conversions `float64(x)` of a float32 and `float32(x)` of a float64. -/
structure Conv where
  widen : F32 → F64
  narrow : F64 → F32

/-- enums/enums.go:93-115 `EnumImpl`. -/
structure EnumVal where
  name : Bytes
  number : UInt16
  size : UInt8
  deriving DecidableEq, Repr

/-- enums/enums.go:12-23 `EnumGroupImpl`: the values of the group. -/
abbrev Group := List EnumVal

/-- enums/enums.go:55-62 `ByValue`: the first value with the number; nil is `none`. -/
def byValue : Group → UInt16 → Option EnumVal
  | [], _ => none
  | e :: g, n => if e.number = n then some e else byValue g n

/-- mapping/mapping.go:52-90 `FieldDescr` as generated (render/golang/templates/mappings.tmpl): the type, the name of the
enum group with the path of its package, and the description of the struct type by its number. -/
structure FD where
  name : Bytes
  ft : Nat
  isEnum : Bool
  group : Bytes
  path : Bytes
  child : Option Nat
  deriving DecidableEq, Repr

/-- What is generated and registered: struct types by number, and enum groups by package path
(runtime/runtime.go:13-28) and name (enums/enums.go:87-91). A package that is not registered is `none`. -/
structure World where
  maps : Nat → List FD
  groups : Bytes → Option (Bytes → Option Group)

/-- impl.go:146-180 `FieldDescrImpl`: the description, the number, and the enum group if the generator put
one there. -/
structure RFD where
  fd : FD
  num : Nat
  eg : Option Group
  deriving DecidableEq, Repr

/-- impl.go:616-623 `StructImpl`: the struct, the number of its type, its field descriptions. `gen` tells that the description is
the generated one, which is a pointer (render/golang/templates/reflect.tmpl:54); the ones made in impl.go are not. -/
structure RStruct where
  s : LSt
  m : Nat
  fields : List RFD
  gen : Bool

/-- impl.go:218-426: the list types and their items. A list of structs carries the number of its type. -/
inductive RList where
  | bools (l : List Bool)
  | nums (k : NTy) (l : List k.Val)
  | bytes (l : List Bytes)
  | strs (l : List Bytes)
  | structs (m : Nat) (l : List St)

/-- value.go:17-43 `Value`. A nil slice is `none`. `field.FTUnknown` is 0. -/
structure Value where
  ft : Nat := 0
  hasScalar : Bool := false
  boolVal : Bool := false
  intVal : Int64 := 0
  uintVal : UInt64 := 0
  floatVal : F64 := ⟨0⟩
  bytesVal : Option Bytes := none
  stringVal : Bytes := []
  isEnum : Bool := false
  group : Option Group := none
  list : Option RList := none
  aStruct : Option RStruct := none
  aMap : Bool := false

/-- What is in a Go `any`: nil, a value of a field type, an enum value, a struct, a slice. -/
inductive GoAny where
  | nil
  | scalar (t : STy) (v : t.Val)
  | enum (e : EnumVal)
  | struct (s : RStruct)
  | slice (l : RList)

/-! ### Making values -/

/-- valueof.go:18-23 `ValueOfBytes`. -/
def ofBytes (v : Option Bytes) : Value := { ft := FTBytes, bytesVal := v }

/-- valueof.go:9-15 `ValueOfBool`, 18-23, 26-31 `ValueOfString`, 52-88 `ValueOfNumber`. Types that are not
scalars have no such function. -/
def ofScalar (c : Conv) : (t : STy) → t.Val → Value
  | .bool, v => { ft := FTBool, boolVal := v, hasScalar := true }
  | .i8, v => { ft := FTInt8, intVal := v.toInt64, hasScalar := true }
  | .i16, v => { ft := FTInt16, intVal := v.toInt64, hasScalar := true }
  | .i32, v => { ft := FTInt32, intVal := v.toInt64, hasScalar := true }
  | .i64, v => { ft := FTInt64, intVal := v, hasScalar := true }
  | .u8, v => { ft := FTUint8, uintVal := v.toUInt64, hasScalar := true }
  | .u16, v => { ft := FTUint16, uintVal := v.toUInt64, hasScalar := true }
  | .u32, v => { ft := FTUint32, uintVal := v.toUInt64, hasScalar := true }
  | .u64, v => { ft := FTUint64, uintVal := v, hasScalar := true }
  | .f32, v => { ft := FTFloat32, floatVal := c.widen v, hasScalar := true }
  | .f64, v => { ft := FTFloat64, floatVal := v, hasScalar := true }
  | .bytes, v => ofBytes (some v)
  | .str, v => { ft := FTString, stringVal := v }
  | _, _ => {}

/-- valueof.go:34-49 `ValueOfEnum` of an 8-bit and of a 16-bit number. -/
def ofEnum8 (n : UInt8) (g : Option Group) : Value :=
  { ft := FTUint8, isEnum := true, group := g, uintVal := n.toUInt64, hasScalar := true }
def ofEnum16 (n : UInt16) (g : Option Group) : Value :=
  { ft := FTUint16, isEnum := true, group := g, uintVal := n.toUInt64, hasScalar := true }

/-- valueof.go:91-95 `ValueOfList`: the field type stays unknown. -/
def ofList (l : RList) : Value := { list := some l }

/-- valueof.go:98-106 `ValueOfStruct`. -/
def ofStruct (s : RStruct) : Value := { ft := FTStruct, aStruct := some s }

/-- valueof.go:109-114 `ValueOfMap`. -/
def ofMap : Value := { ft := FTMap, aMap := true }

/-! ### Reading values -/

namespace Value

/-- value.go:61-66 `Enum`: a nil group panics, an unknown number is nil. -/
def enum (v : Value) : Res (Option EnumVal) :=
  if v.isEnum then
    match v.group with
    | none => .panic
    | some g => .ok (byValue g v.uintVal.toUInt16)
  else .panic

/-- value.go:113-170: the last switch of `Any`, by field type. No function of valueof.go gives a value one of
the list types, so those cases (140-167) are shortened to one. -/
def anyOf (c : Conv) (v : Value) : Res GoAny :=
  if v.ft = FTBool then .ok (.scalar .bool v.boolVal)
  else if v.ft = FTInt8 then .ok (.scalar .i8 v.intVal.toInt8)
  else if v.ft = FTInt16 then .ok (.scalar .i16 v.intVal.toInt16)
  else if v.ft = FTInt32 then .ok (.scalar .i32 v.intVal.toInt32)
  else if v.ft = FTInt64 then .ok (.scalar .i64 v.intVal)
  else if v.ft = FTUint8 then .ok (.scalar .u8 v.uintVal.toUInt8)
  else if v.ft = FTUint16 then .ok (.scalar .u16 v.uintVal.toUInt16)
  else if v.ft = FTUint32 then .ok (.scalar .u32 v.uintVal.toUInt32)
  else if v.ft = FTUint64 then .ok (.scalar .u64 v.uintVal)
  else if v.ft = FTFloat32 then .ok (.scalar .f32 (c.narrow v.floatVal))
  else if v.ft = FTFloat64 then .ok (.scalar .f64 v.floatVal)
  else if v.ft = FTString then .ok (.scalar .str v.stringVal)
  else if v.ft = FTBytes then .ok (.scalar .bytes (v.bytesVal.getD []))
  else if FTListBools ≤ v.ft ∧ v.ft ≤ FTListStructs then
    match v.list with
    | none => .panic
    | some l => .ok (.slice l)
  else .panic

/-- value.go:100-171 `Any`. -/
def any (c : Conv) (v : Value) : Res GoAny :=
  if !v.hasScalar && v.aStruct.isNone && v.group.isNone && v.list.isNone && v.bytesVal.isNone
      && v.stringVal.isEmpty then .ok .nil
  else if v.isEnum then do
    match ← v.enum with
    | none => return .nil
    | some e => return .enum e
  else
    match v.aStruct with
    | some s => .ok (.struct s)
    | none => v.anyOf c

end Value

/-! ### Field types -/

/-- The field types of scalars, as in the switches of `GetValue`, `SetField` and `ClearField`. -/
def scalarTy (ft : Nat) : Option STy :=
  if ft = FTBool then some .bool
  else if ft = FTInt8 then some .i8
  else if ft = FTInt16 then some .i16
  else if ft = FTInt32 then some .i32
  else if ft = FTInt64 then some .i64
  else if ft = FTUint8 then some .u8
  else if ft = FTUint16 then some .u16
  else if ft = FTUint32 then some .u32
  else if ft = FTUint64 then some .u64
  else if ft = FTFloat32 then some .f32
  else if ft = FTFloat64 then some .f64
  else if ft = FTBytes then some .bytes
  else if ft = FTString then some .str
  else none

/-- The field types of number lists. -/
def numsTy (ft : Nat) : Option NTy :=
  if ft = FTListInt8 then some .i8
  else if ft = FTListInt16 then some .i16
  else if ft = FTListInt32 then some .i32
  else if ft = FTListInt64 then some .i64
  else if ft = FTListUint8 then some .u8
  else if ft = FTListUint16 then some .u16
  else if ft = FTListUint32 then some .u32
  else if ft = FTListUint64 then some .u64
  else if ft = FTListFloat32 then some .f32
  else if ft = FTListFloat64 then some .f64
  else none

/-! ### Writing a field -/

/-- The type assertion `v.(T)`. -/
def assertTy (t : STy) : GoAny → Res t.Val
  | .scalar t' v => if h : t' = t then .ok (h ▸ v) else .panic
  | _ => .panic

/-- impl.go:795-841 `SetField`. An enum value goes into a field of either enum size by its number (807-820); a value
that is not a struct is ignored for a struct field (833-837). A struct is synced before it is copied
(segment/bytes.go:148). -/
def setField (s : St) (fn ft : Nat) (v : GoAny) : Res St :=
  match scalarTy ft with
  | some t =>
    match t, v with
    | .u8, .enum e => setUint8 s fn e.number.toUInt8
    | .u16, .enum e => setUint16 s fn e.number
    | t, v => do
      let x ← assertTy t v
      t.set s fn x
  | none =>
    if ft = FTStruct then
      match v with
      | .struct r => do
        let c ← r.s.syncAll r.s.dirtyLists
        setNestedStruct s fn (some c.st)
      | _ => .ok s
    else .panic

/-- impl.go:669-671 `Set`. A nil interface (`none`) panics in `v.Any()`. -/
def set (c : Conv) (L : LSt) (fd : RFD) (v : Option Value) : Res LSt :=
  match v with
  | none => .panic
  | some v => do
    let x ← v.any c
    let st ← setField L.st fd.num fd.fd.ft x
    return { L with st := st }

/-- impl.go:661-663 `Has`. -/
def has (L : LSt) (fd : RFD) : Res (Bool × LSt) := do
  let (b, st) ← L.st.hasField fd.num
  return (b, { L with st := st })

/-- impl.go:665-667 `Clear` with 759-792 `ClearField`: the zero value is set; other types are left alone. -/
def clear (L : LSt) (fd : RFD) : Res LSt :=
  match scalarTy fd.fd.ft with
  | some .str => do
    let st ← setBytes L.st fd.num []
    return { L with st := st }
  | some t => do
    let st ← t.set L.st fd.num t.zero
    return { L with st := st }
  | none =>
    if fd.fd.ft = FTStruct then do
      let st ← setNestedStruct L.st fd.num none
      return { L with st := st }
    else .ok L

/-! ### Reading a field -/

/-- impl.go:988-999: the bits of the bytes behind the header, eight per byte, lowest first. -/
def allBits (d : Bytes) : List Bool :=
  d.flatMap fun b => (List.range 8).map fun i => (b &&& (1 <<< UInt8.ofNat i)) != 0

/-- impl.go:981-1001 `getListBools`. -/
def readBools (s : St) (fn : Nat) : Res (List Bool) := do
  let ((offset, size), s) ← s.fieldOffset fn
  if size ≤ HeaderSize then return []
  else
    let d ← s.seg.sub offset (offset + size)
    return allBits (d.drop HeaderSize)

/-- A new list object, registered and cached (segment/struct.go:272-276). -/
def newList (L : LSt) (fn : Nat) (t : STy) (v : t.Val) : LSt :=
  let L := { L with heap := L.heap ++ [LObj.mk fn t v false] }
  L.register fn (L.heap.length - 1)

/-- impl.go:1004-1012 `getListNumbers` with segment/lists.go:199-230 `NewNumbers`: a new object with the items of the
segment. -/
def readNums (k : NTy) (L : LSt) (fn : Nat) : Res (List k.Val × LSt) := do
  let v ← STy.getList (.lnum k) L.st fn
  return (v.getD [], newList L fn (.lnum k) (v.getD []))

/-- impl.go:1015-1032 `getListBytes` and `getListStrings` with segment/lists.go:615-624 `NewStrings` and 802-811 `NewBytes`:
a new object without items. -/
def readItems (t : STy) (L : LSt) (fn : Nat) : List Bytes × LSt :=
  match t with
  | .lstr => ([], newList L fn .lstr [])
  | .lbytes => ([], newList L fn .lbytes [])
  | _ => ([], L)

/-- impl.go:919-927 and 384-395: the description made for a struct type that is reached through a field; no enum groups. -/
def plainFields (W : World) (m : Nat) : List RFD := (W.maps m).mapIdx fun i fd => ⟨fd, i, none⟩

/-- `strings.Split(s, ".")`, and of it the only or the second part (impl.go:872-878). -/
def groupName (s : Bytes) : Bytes :=
  if s.contains 46 then ((s.dropWhile (· != 46)).drop 1).takeWhile (· != 46) else s

/-- impl.go:879-881 and 887-889: the enum group; a package that is not registered panics, a group that is not found is
nil. -/
def lookup (W : World) (path name : Bytes) : Res (Option Group) :=
  match W.groups path with
  | none => .panic
  | some g => .ok (g name)

/-- impl.go:843-978 `GetValue` of a struct of type `m`: nil is `none`. `GetBytes` returns nil for no bytes
(segment/bytes.go:105-121). -/
def getValue (c : Conv) (W : World) (m : Nat) (L : LSt) (fn : Nat) : Res (Option Value × LSt) := do
  let (h, st) ← L.st.hasField fn
  let L := { L with st := st }
  if !h then return (none, L)
  else
    match (W.maps m)[fn]? with
    | none => .panic
    | some d =>
      match scalarTy d.ft with
      | some .u8 => do
        let n ← getUint8 L.st fn
        if d.isEnum then
          let g ← lookup W d.path (groupName d.group)
          return (some (ofEnum8 n g), L)
        else return (some (ofScalar c .u8 n), L)
      | some .u16 => do
        let n ← getUint16 L.st fn
        if d.isEnum then
          let g ← lookup W d.path d.group
          return (some (ofEnum16 n g), L)
        else return (some (ofScalar c .u16 n), L)
      | some .bytes => do
        let b ← getBytes L.st fn
        return (some (ofBytes (if b.isEmpty then none else some b)), L)
      | some t => do
        let v ← t.get L.st fn
        return (some (ofScalar c t v), L)
      | none =>
        match numsTy d.ft with
        | some k => do
          let (l, L) ← readNums k L fn
          return (some (ofList (.nums k l)), L)
        | none =>
          if d.ft = FTStruct then
            match d.child with
            | none => .panic
            | some k => do
              match ← getNestedStruct L.st fn (W.maps k).length with
              | none => return (none, L)
              | some ch => return (some (ofStruct ⟨LSt.ofSt ch, k, plainFields W k, false⟩), L)
          else if d.ft = FTListBools then do
            let l ← readBools L.st fn
            return (some (ofList (.bools l)), L)
          else if d.ft = FTListBytes then
            let (l, L) := readItems .lbytes L fn
            return (some (ofList (.bytes l)), L)
          else if d.ft = FTListStrings then
            let (l, L) := readItems .lstr L fn
            return (some (ofList (.strs l)), L)
          else if d.ft = FTListStructs then
            match d.child with
            | none => .panic
            | some k => do
              let l ← getListStructs L.st fn (W.maps k).length
              return (some (ofList (.structs k (l.getD []))), L)
          else .panic

/-- impl.go:657-659 `Get`. -/
def get (c : Conv) (W : World) (r : RStruct) (fd : RFD) : Res (Option Value × RStruct) := do
  let (v, L) ← getValue c W r.m r.s fd.num
  return (v, { r with s := L })

/-- impl.go:636-655 `Fields` and `Range` with a function that never stops: every field is read and handed on in the
order of the description; `none` is the nil value of an unset field. -/
def range (c : Conv) (W : World) {σ : Type} (f : σ → RFD → Option Value → Res σ) :
    RStruct → List RFD → σ → Res (σ × RStruct)
  | r, [], x => .ok (x, r)
  | r, fd :: fds, x => do
    let (v, r) ← get c W r fd
    let x ← f x fd v
    range c W f r fds x

/-- impl.go:629-632 `New`. -/
def newStruct (W : World) (r : RStruct) : Res RStruct := do
  let s ← St.new (W.maps r.m).length
  return { r with s := LSt.ofSt s }

/-- impl.go:673-746 `NewField`. The type assertion of the description (737) fails for a pointer. -/
def newField (c : Conv) (W : World) (r : RStruct) (fd : RFD) : Res Value :=
  match scalarTy fd.fd.ft with
  | some .u8 =>
    if fd.fd.isEnum then
      match fd.eg with
      | none => .panic
      | some g => .ok (ofEnum8 0 (some g))
    else .ok (ofScalar c .u8 0)
  | some .u16 =>
    if fd.fd.isEnum then
      match fd.eg with
      | none => .panic
      | some g => .ok (ofEnum16 0 (some g))
    else .ok (ofScalar c .u16 0)
  | some .bytes => .ok (ofBytes none)
  | some t => .ok (ofScalar c t t.zero)
  | none =>
    match numsTy fd.fd.ft with
    | some k => .ok (ofList (.nums k []))
    | none =>
      if fd.fd.ft = FTStruct then do
        let n ← newStruct W r
        return ofStruct n
      else if fd.fd.ft = FTListBools then .ok (ofList (.bools []))
      else if fd.fd.ft = FTListBytes then .ok (ofList (.bytes []))
      else if fd.fd.ft = FTListStrings then .ok (ofList (.strs []))
      else if fd.fd.ft = FTListStructs then (if r.gen then .panic else .ok (ofList (.structs r.m [])))
      else .panic

/-! ### Printing -/

/-- ASCII text. -/
def txt (s : String) : Bytes := s.toUTF8.toList

/-- value.go:173-230 `String`, with `fmt.Sprint` as a parameter. The recursion goes into nested structs; `hang` is out
of fuel. The case of `FTListStructs` (212-224) cannot occur, because no list value has that type. -/
def str (c : Conv) (W : World) (sprint : GoAny → Bytes) : Nat → Value → Res Bytes
  | 0, _ => .hang
  | fuel + 1, v =>
    if v.ft = 0 && !v.hasScalar && v.aStruct.isNone && v.list.isNone then .ok (txt "<invalid Value>")
    else if v.isEnum then do
      match ← v.enum with
      | none => .panic
      | some e => return e.name
    else if v.ft = FTString then .ok v.stringVal
    else if v.ft = FTStruct then
      match v.aStruct with
      | none => .panic
      | some r => do
        let (t, _) ← range c W (fun (acc : Bytes) fd x =>
          match x with
          | none => .panic
          | some x => do
            let s ← str c W sprint fuel x
            return acc ++ (if acc.isEmpty then [] else txt ", ") ++ fd.fd.name ++ txt ": " ++ s) r r.fields []
        return txt "{" ++ t ++ txt "}"
    else do
      let a ← v.any c
      return sprint a

/-! ### Lists -/

namespace RList

/-- impl.go:231, 292, 325, 358, 401 `Len`. -/
def len : RList → Nat
  | .bools l => l.length
  | .nums _ l => l.length
  | .bytes l => l.length
  | .strs l => l.length
  | .structs _ l => l.length

/-- impl.go:235, 296, 329, 362, 405-411 `Get`; out of range panics. -/
def get (c : Conv) (W : World) : RList → Nat → Res Value
  | .bools l, i => (Res.ofOption l[i]?).bind fun b => .ok (ofScalar c .bool b)
  | .nums .i8 l, i => (Res.ofOption l[i]?).bind fun b => .ok (ofScalar c .i8 b)
  | .nums .i16 l, i => (Res.ofOption l[i]?).bind fun b => .ok (ofScalar c .i16 b)
  | .nums .i32 l, i => (Res.ofOption l[i]?).bind fun b => .ok (ofScalar c .i32 b)
  | .nums .i64 l, i => (Res.ofOption l[i]?).bind fun b => .ok (ofScalar c .i64 b)
  | .nums .u8 l, i => (Res.ofOption l[i]?).bind fun b => .ok (ofScalar c .u8 b)
  | .nums .u16 l, i => (Res.ofOption l[i]?).bind fun b => .ok (ofScalar c .u16 b)
  | .nums .u32 l, i => (Res.ofOption l[i]?).bind fun b => .ok (ofScalar c .u32 b)
  | .nums .u64 l, i => (Res.ofOption l[i]?).bind fun b => .ok (ofScalar c .u64 b)
  | .nums .f32 l, i => (Res.ofOption l[i]?).bind fun b => .ok (ofScalar c .f32 b)
  | .nums .f64 l, i => (Res.ofOption l[i]?).bind fun b => .ok (ofScalar c .f64 b)
  | .bytes l, i => (Res.ofOption l[i]?).bind fun b => .ok (ofBytes (some b))
  | .strs l, i => (Res.ofOption l[i]?).bind fun b => .ok (ofScalar c .str b)
  | .structs m l, i => (Res.ofOption l[i]?).bind fun b => .ok (ofStruct ⟨LSt.ofSt b, m, plainFields W m, false⟩)

end RList

end Claw.Refl
