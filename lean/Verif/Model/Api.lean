import Verif.Model.Maps

/-!
# The typed accessors as one family, and client programs over them

`struct.tmpl` (`/repo/clawc/internal/idl/struct.tmpl`) generates one getter and
one setter per field which call the segment functions. `STy.set`/`STy.get` dispatch on the field
type exactly as the template does; `Op`/`run` is a client program that uses the setters.
-/

namespace Claw

/-- Field types of the schema language other than structs and lists of structs: scalars, lists of
scalars, `any`, `[]any` and maps. -/
inductive STy where
  | bool | i8 | i16 | i32 | i64 | u8 | u16 | u32 | u64 | f32 | f64 | bytes | str
  | lbool | lnum (k : NTy) | lstr | lbytes | any | lany | map (kt : KTy) (vt : VTy)
  deriving DecidableEq, Repr

/-- Is it a list type? -/
def STy.isList : STy → Bool
  | .lbool | .lnum _ | .lstr | .lbytes => true
  | _ => false

/-- Is it a map type? -/
def STy.isMap : STy → Bool
  | .map _ _ => true
  | _ => false

/-- The Go type of the accessor. A string is its bytes, a list the slice of its items, a map the list
of its entries in order. An Any holds the type identity and the bytes of a struct. -/
@[reducible] def STy.Val : STy → Type
  | .bool => Bool | .i8 => Int8 | .i16 => Int16 | .i32 => Int32 | .i64 => Int64
  | .u8 => UInt8 | .u16 => UInt16 | .u32 => UInt32 | .u64 => UInt64
  | .f32 => F32 | .f64 => F64 | .bytes => Bytes | .str => Bytes
  | .lbool => List Bool | .lnum k => List k.Val | .lstr => List Bytes | .lbytes => List Bytes
  | .any => Option AnyVal | .lany => List AnyVal | .map kt vt => List (kt.Val × vt.Val)

/-- The Go zero value. -/
def STy.zero : (t : STy) → t.Val
  | .bool => false | .i8 => 0 | .i16 => 0 | .i32 => 0 | .i64 => 0
  | .u8 => 0 | .u16 => 0 | .u32 => 0 | .u64 => 0
  | .f32 => ⟨0⟩ | .f64 => ⟨0⟩ | .bytes => [] | .str => []
  | .lbool => [] | .lnum _ => [] | .lstr => [] | .lbytes => []
  | .any => none | .lany => [] | .map _ _ => []

/-- Go's `value == 0` / `len(value) == 0`. -/
def STy.isZero : (t : STy) → t.Val → Bool
  | .bool, v => !v | .i8, v => v == 0 | .i16, v => v == 0 | .i32, v => v == 0 | .i64, v => v == 0
  | .u8, v => v == 0 | .u16, v => v == 0 | .u32, v => v == 0 | .u64, v => v == 0
  | .f32, v => F32.isZero v | .f64, v => F64.isZero v
  | .bytes, v => v.length == 0 | .str, v => v.length == 0
  | .lbool, v => v.length == 0 | .lnum _, v => v.length == 0
  | .lstr, v => v.length == 0 | .lbytes, v => v.length == 0
  | .any, v => v.isNone | .lany, v => v.length == 0 | .map _ _, v => v.length == 0

/-- The setter generated for a field of type `t`. For a list (struct.tmpl:369-490 `SetX(v...)`) it
is `SetAll`; the list is written to the struct at the next sync, which here happens at once
(`Verif.Model.ListCache` models the delay). For a map (struct.tmpl:558-800) it is a new map object with
these entries, likewise written at once. -/
def STy.set : (t : STy) → St → Nat → t.Val → Res St
  | .bool, s, n, v => setBool s n v | .i8, s, n, v => setInt8 s n v
  | .i16, s, n, v => setInt16 s n v | .i32, s, n, v => setInt32 s n v
  | .i64, s, n, v => setInt64 s n v | .u8, s, n, v => setUint8 s n v
  | .u16, s, n, v => setUint16 s n v | .u32, s, n, v => setUint32 s n v
  | .u64, s, n, v => setUint64 s n v | .f32, s, n, v => setFloat32 s n v
  | .f64, s, n, v => setFloat64 s n v | .bytes, s, n, v => setBytes s n v
  | .str, s, n, v => setStringAsBytes s n v
  | .lbool, s, n, v => setListBools s n v | .lnum k, s, n, v => setListNums k s n v
  | .lstr, s, n, v => setListItems FTListStrings s n v
  | .lbytes, s, n, v => setListItems FTListBytes s n v
  | .any, s, n, v => setAny s n v | .lany, s, n, v => setListAny s n v
  | .map kt vt, s, n, v => do
    let (s, _) ← syncMap kt vt s n ⟨v.map Prod.fst, v.map Prod.snd, true⟩
    return s

/-- The getter generated for a field of type `t`. For a list: the items of the list `X()` returns
(struct.tmpl:369-490), which is empty when the field is not there. For an Any: what `GetAnyRaw` returns.
For a map: the entries in the order of its iterators. -/
def STy.get : (t : STy) → St → Nat → Res t.Val
  | .bool, s, n => getBool s n | .i8, s, n => getInt8 s n
  | .i16, s, n => getInt16 s n | .i32, s, n => getInt32 s n
  | .i64, s, n => getInt64 s n | .u8, s, n => getUint8 s n
  | .u16, s, n => getUint16 s n | .u32, s, n => getUint32 s n
  | .u64, s, n => getUint64 s n | .f32, s, n => getFloat32 s n
  | .f64, s, n => getFloat64 s n | .bytes, s, n => getBytes s n
  | .str, s, n => getBytes s n
  | .lbool, s, n => do
    match ← getListBools s n with
    | none => return []
    | some v => return v
  | .lnum k, s, n => do
    match ← getListNums k s n with
    | none => return []
    | some l => l.slice k
  | .lstr, s, n => do
    match ← getListItems s n with
    | none => return []
    | some v => return v
  | .lbytes, s, n => do
    match ← getListItems s n with
    | none => return []
    | some v => return v
  | .any, s, n => getAnyRaw s n | .lany, s, n => getListAnys s n
  | .map kt vt, s, n => do
    match ← getMap kt vt s n with
    | none => return []
    | some m => return m.keys.zip m.vals

/-- One call of a client on a struct. `nest fn m ops`: make a new child struct of an `m`-field
schema, run `ops` on it and store it in field `fn`. `nestList fn m progs`: make one new struct per
program, run the programs, and make them the items of the struct list `fn`. `peek`: call any getter or `HasField`; the only
effect of a read on the struct is the lazy parse (struct.go:494-499). -/
inductive Op where
  | set (fn : Nat) (t : STy) (v : t.Val)
  | clear (fn : Nat)
  | nest (fn : Nat) (m : Nat) (ops : List Op)
  | nestNil (fn : Nat)
  | nestList (fn : Nat) (m : Nat) (progs : List (List Op))
  | peek

mutual
/-- Run one call. -/
def Op.run : Op → St → Res St
  | .set fn t v, s => t.set s fn v
  | .clear fn, s => clearField s fn
  | .nest fn m ops, s => do
    let c ← St.new m
    let c ← runOps ops c
    setNestedStruct s fn (some c)
  | .nestNil fn, s => setNestedStruct s fn none
  | .nestList fn m progs, s => do
    let items ← runItems m progs
    setListStructs s fn items
  | .peek, s => s.ensure
/-- Run a sequence of calls. -/
def runOps : List Op → St → Res St
  | [], s => .ok s
  | op :: ops, s => do
    let s ← op.run s
    runOps ops s
/-- Build the items of a struct list; the result are their segments. -/
def runItems (m : Nat) : List (List Op) → Res (List Bytes)
  | [] => .ok []
  | p :: ps => do
    let c ← St.new m
    let c ← runOps p c
    let rest ← runItems m ps
    return c.seg.data :: rest
end

/-- A new struct of an `m`-field schema after the calls `ops`. -/
def run (m : Nat) (ops : List Op) : Res St := do
  let s ← St.new m
  runOps ops s

/-- A schema: the types of the fields by number. -/
inductive Ty where
  | scalar (t : STy)
  | struct (fields : List Ty)
  | structs (fields : List Ty)
  deriving Repr

/-- What a client sees in a field. `absent` is the zero value, a nil nested struct, an empty list. -/
inductive Val where
  | absent
  | scalar (t : STy) (v : t.Val)
  | struct (fields : List Val)
  | structs (items : List (List Val))

/-- Apply a function to all items, stopping at the first panic. -/
def mapRes {α β : Type} (f : α → Res β) : List α → Res (List β)
  | [] => .ok []
  | x :: xs => do
    let y ← f x
    let ys ← mapRes f xs
    return y :: ys

mutual
/-- Read field `i` with the getter of its type. -/
def Ty.read : Ty → St → Nat → Res Val
  | .scalar t, s, i => do
    let v ← t.get s i
    return if t.isZero v then .absent else .scalar t v
  | .struct tys, s, i => do
    match ← getNestedStruct s i tys.length with
    | none => return .absent
    | some c => do
      let vs ← readFields tys c 0
      return .struct vs
  | .structs tys, s, i => do
    match ← getListStructs s i tys.length with
    | none => return .absent
    | some cs => do
      let items ← mapRes (fun c => readFields tys c 0) cs
      return if items.isEmpty then .absent else .structs items
/-- Read fields `i`, `i+1`, … with the getters of their types. -/
def readFields : List Ty → St → Nat → Res (List Val)
  | [], _, _ => .ok []
  | ty :: tys, s, i => do
    let v ← ty.read s i
    let vs ← readFields tys s (i + 1)
    return v :: vs
end

end Claw
