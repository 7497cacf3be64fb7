import Verif.Model.Idl
import Verif.Model.Maps

/-!
# Token streams: `Walk`, `Ingest` and skipping

`/repo/clawc/languages/go/clawiter/token.go`, `/repo/clawc/languages/go/clawiter/ingest.go` and the
methods the compiler generates from
`/repo/clawc/internal/render/golang/templates/clawiter.tmpl` (`Walk`) and
`/repo/clawc/internal/render/golang/templates/clawingest.tmpl` (`Ingest`).

Simplifications.
* A struct is the list of the values its accessors give, in the order of its declarations
  (`/repo/clawc/internal/idl/struct.tmpl`); a setter replaces one of them, `Append` extends one.
  That accessors and setters of a struct behave so is the subject of the other models.
* A scalar (bool, integers, floats) is the 64-bit pattern the token holds for it; `norm` is the
  conversion of a pattern to the type and back.
* A map is its keys, in order, and the values beside them; a nil pointer is not a map value.
* The token fields `EnumGroup`, `StructName` and `Len`, which neither `Ingest` nor skipping reads,
  are left out.  Error texts are left out.
* An error return leaves the struct half filled; the model gives no struct in that case.
-/

namespace Claw.Tok

open Claw.Idl (FT Out)

/-! ### Types and values -/

/-- The tables the compiler writes for an enum: `…ByValue` and `…ByName`
(`/repo/clawc/internal/render/golang/templates/enums.tmpl` 39-51). -/
structure EnumT where
  byValue : List (UInt64 × Str)
  byName : List (Str × UInt64)
  deriving DecidableEq, Repr

/-- The value types of a map that the templates tell apart (clawiter.tmpl 577-681).  `other` stands
for those that fall into the last branch: bytes, maps and lists other than `[]Any`. -/
inductive MTy where
  | num (t : FT)
  | str
  | any
  | listAny
  | struct (s : Nat)
  | other (t : FT)
  deriving DecidableEq, Repr

/-- The type of a field.  A struct type is a number into the table of declarations. -/
inductive Ty where
  | num (t : FT) (e : Option EnumT)
  | str
  | bytes
  | struct (s : Nat)
  | listNum (t : FT) (e : Option EnumT)
  | listStr
  | listBytes
  | listStruct (s : Nat)
  | map (k : FT) (v : MTy)
  | any
  | listAny
  deriving DecidableEq, Repr

/-- A field of a struct: its name and type. -/
structure Decl where
  name : Str
  ty : Ty
  deriving DecidableEq, Repr

/-- The struct declarations of a program. -/
abbrev Env := Nat → List Decl

/-- A map key: a scalar or a string. -/
inductive Key where
  | num (d : UInt64)
  | str (b : Bytes)
  deriving DecidableEq, Repr

/-- What an accessor gives.  `null` is a nil struct or an unset Any. -/
inductive Val where
  | num (d : UInt64)
  | bin (b : Bytes)
  | null
  | obj (fs : List Val)
  | nums (ds : List UInt64)
  | bins (bs : List Bytes)
  | list (l : List Val)
  | map (ks : List Key) (vs : List Val)
  | any (hash data : Bytes)
  | anys (l : List (Bytes × Bytes))
  deriving Repr, Inhabited

/-- The value of a field of a new struct. -/
def Ty.default : Ty → Val
  | .num _ _ => .num 0
  | .str => .bin []
  | .bytes => .bin []
  | .struct _ => .null
  | .listNum _ _ => .nums []
  | .listStr => .bins []
  | .listBytes => .bins []
  | .listStruct _ => .list []
  | .map _ _ => .map [] []
  | .any => .null
  | .listAny => .anys []

/-- `New…(ctx)` (struct.tmpl 12-20). -/
def fresh (env : Env) (s : Nat) : List Val := (env s).map fun d => d.ty.default

/-! ### Tokens -/

/-- TokenKind (token.go 14-25). -/
inductive Kind where
  | structStart | structEnd | field | listStart | listEnd | mapStart | mapEnd | mapEntry
  deriving DecidableEq, Repr

/-- Token (token.go 28-71). -/
structure Token where
  kind : Kind
  name : Str := []
  type : FT := .unknown
  data : UInt64 := 0
  bytes : Bytes := []
  isEnum : Bool := false
  enumName : Str := []
  isNil : Bool := false
  typeHash : Bytes := []
  keyType : FT := .unknown
  valueType : FT := .unknown
  key : UInt64 := 0
  keyBytes : Bytes := []
  deriving DecidableEq, Repr

/-- The accessors of a token followed by the setters (token.go 74-150, keys 154-233):
`SetInt8(t.Int8())` and so on.  A conversion to a signed type and back extends the sign. -/
def norm (t : FT) (d : UInt64) : UInt64 :=
  match t with
  | .bool => if d ≠ 0 then 1 else 0
  | .int8 => (d.toUInt8.toInt8.toInt64).toUInt64
  | .int16 => (d.toUInt16.toInt16.toInt64).toUInt64
  | .int32 => (d.toUInt32.toInt32.toInt64).toUInt64
  | .int64 => d
  | .uint8 => d.toUInt8.toUInt64
  | .uint16 => d.toUInt16.toUInt64
  | .uint32 => d.toUInt32.toUInt64
  | .uint64 => d
  | .float32 => d.toUInt32.toUInt64
  | .float64 => d
  | _ => d

/-- The list type of an element type (field.go). -/
def listOf : FT → FT
  | .bool => .listBools | .int8 => .listInt8 | .int16 => .listInt16 | .int32 => .listInt32
  | .int64 => .listInt64 | .uint8 => .listUint8 | .uint16 => .listUint16 | .uint32 => .listUint32
  | .uint64 => .listUint64 | .float32 => .listFloat32 | .float64 => .listFloat64
  | t => t

/-- `ValueTypeConst` (idl.go 851-854). -/
def MTy.ft : MTy → FT
  | .num t => t
  | .str => .string
  | .any => .any
  | .listAny => .listAny
  | .struct _ => .struct
  | .other t => t

/-- `…ByValue[v]`: a missing value gives the empty string. -/
def nameOf (e : EnumT) (d : UInt64) : Str := ((e.byValue.find? fun p => p.1 = d).map (·.2)).getD []

/-- `…ByName[s]`: a missing name gives 0. -/
def valueOf (e : EnumT) (n : Str) : UInt64 := ((e.byName.find? fun p => p.1 = n).map (·.2)).getD 0

/-! ### Walk -/

/-- The token of a scalar field or of an item of a list of scalars (clawiter.tmpl 33-130, 188-194). -/
def numTok (name : Str) (t : FT) (e : Option EnumT) (d : UInt64) : Token :=
  match e with
  | none => { kind := .field, name, type := t, data := d }
  | some e => { kind := .field, name, type := t, data := d, isEnum := true, enumName := nameOf e d }

/-- The three shapes of a list field (clawiter.tmpl 154-508, 717-748): empty lists are announced as
nil. -/
def listToks (name : Str) (t : FT) (isEnum : Bool) (len : Nat) (items : List Token) : List Token :=
  if len = 0 then [{ kind := .field, name, type := t, isNil := true, isEnum }]
  else { kind := .field, name, type := t, isEnum } :: { kind := .listStart, name, type := t } ::
    (items ++ [{ kind := .listEnd, name }])

/-- The token of a map entry before its value is set (clawiter.tmpl 534-567). -/
def entryTok (name : Str) (k : FT) (v : FT) (key : Key) : Token :=
  match key with
  | .num d => { kind := .mapEntry, name, keyType := k, valueType := v, key := d }
  | .str b => { kind := .mapEntry, name, keyType := k, valueType := v, keyBytes := b }

/-- The tokens of a `[]Any` map value (clawiter.tmpl 591-611). -/
def anyToks (l : List (Bytes × Bytes)) : List Token :=
  { kind := .listStart, type := .listAny } ::
    (l.map fun p => ({ kind := .field, type := .any, typeHash := p.1, bytes := p.2 } : Token)) ++
    [{ kind := .listEnd }]

mutual

/-- Walk (clawiter.tmpl 26-752), with a `yield` that always asks for more: the tokens of a struct.
The name of the struct in the two outer tokens is left out. -/
def walk (env : Env) (s : Nat) : Val → List Token
  | .obj fs => { kind := .structStart } :: walkFields env (env s) fs ++ [{ kind := .structEnd }]
  | _ => []

/-- The fields of a struct, in order. -/
def walkFields (env : Env) : List Decl → List Val → List Token
  | d :: ds, v :: vs => walkField env d.name d.ty v ++ walkFields env ds vs
  | _, _ => []

/-- One field (clawiter.tmpl 31-745). -/
def walkField (env : Env) (name : Str) (ty : Ty) : Val → List Token
  | .num d => match ty with
    | .num t e => [numTok name t e d]
    | _ => []
  | .bin b => match ty with
    | .str => [{ kind := .field, name, type := .string, bytes := b }]
    | .bytes => [{ kind := .field, name, type := .bytes, bytes := b }]
    | _ => []
  | .null => match ty with
    | .struct _ => [{ kind := .field, name, type := .struct, isNil := true }]
    | .any => [{ kind := .field, name, type := .any, isNil := true }]
    | _ => []
  | .obj fs => match ty with
    | .struct s => { kind := .field, name, type := .struct } ::
        ({ kind := .structStart } :: walkFields env (env s) fs ++ [{ kind := .structEnd }])
    | _ => []
  | .nums ds => match ty with
    | .listNum t e => listToks name (listOf t) e.isSome ds.length (ds.map (numTok [] t e))
    | _ => []
  | .bins bs => match ty with
    | .listStr => listToks name .listStrings false bs.length
        (bs.map fun b => { kind := .field, type := .string, bytes := b })
    | .listBytes => listToks name .listBytes false bs.length
        (bs.map fun b => { kind := .field, type := .bytes, bytes := b })
    | _ => []
  | .list l => match ty with
    | .listStruct s => listToks name .listStructs false l.length (walkItems env s l)
    | _ => []
  | .map ks vs => match ty with
    | .map k v =>
      if ks = [] then
        [{ kind := .field, name, type := .map, keyType := k, valueType := v.ft, isNil := true }]
      else
        { kind := .field, name, type := .map, keyType := k, valueType := v.ft } ::
        { kind := .mapStart, name, keyType := k, valueType := v.ft } ::
        (walkEntries env name k v ks vs ++ [{ kind := .mapEnd, name }])
    | _ => []
  | .any hash data => match ty with
    | .any => [{ kind := .field, name, type := .any, typeHash := hash, bytes := data }]
    | _ => []
  | .anys l => match ty with
    | .listAny => listToks name .listAny false l.length
        (l.map fun p => { kind := .field, type := .any, typeHash := p.1, bytes := p.2 })
    | _ => []

/-- The items of a list of structs (clawiter.tmpl 500-503). -/
def walkItems (env : Env) (s : Nat) : List Val → List Token
  | v :: vs => walk env s v ++ walkItems env s vs
  | [] => []

/-- The entries of a map (clawiter.tmpl 524-681). -/
def walkEntries (env : Env) (name : Str) (k : FT) (v : MTy) : List Key → List Val → List Token
  | key :: ks, x :: vs => walkEntry env name k v key x ++ walkEntries env name k v ks vs
  | _, _ => []

/-- One entry (clawiter.tmpl 534-681). -/
def walkEntry (env : Env) (name : Str) (k : FT) (v : MTy) (key : Key) : Val → List Token
  | .num d => match v with
    | .num _ => [{ entryTok name k v.ft key with data := d }]
    | _ => [entryTok name k v.ft key]
  | .bin b => match v with
    | .str => [{ entryTok name k v.ft key with bytes := b }]
    | _ => [entryTok name k v.ft key]
  | .obj fs => match v with
    | .struct s => entryTok name k v.ft key ::
        ({ kind := .structStart } :: walkFields env (env s) fs ++ [{ kind := .structEnd }])
    | _ => [entryTok name k v.ft key]
  | .any hash data => match v with
    | .any => [{ entryTok name k v.ft key with typeHash := hash, bytes := data }]
    | _ => [entryTok name k v.ft key]
  | .anys l => match v with
    | .listAny => entryTok name k v.ft key :: anyToks l
    | _ => [entryTok name k v.ft key]
  | _ => [entryTok name k v.ft key]

end

/-! ### Skipping -/

/-- skipStruct (ingest.go 103-127), the loop: the depth is `depth + 1`. -/
def skipDepth : Nat → List Token → Out (List Token)
  | _, [] => .err
  | depth, t :: ts =>
    match t.kind with
    | .structStart => skipDepth (depth + 1) ts
    | .structEnd => match depth with
      | 0 => .ok ts
      | d + 1 => skipDepth d ts
    | _ => skipDepth depth ts

/-- skipStruct (ingest.go 103-127). -/
def skipStruct : List Token → Out (List Token)
  | [] => .err
  | t :: ts => if t.kind ≠ .structStart then .err else skipDepth 0 ts

/-- skipList (ingest.go 130-149), the loop. -/
def skipToListEnd : List Token → Out (List Token)
  | [] => .err
  | t :: ts => if t.kind = .listEnd then .ok ts else skipToListEnd ts

/-- skipList (ingest.go 130-149). -/
def skipList : List Token → Out (List Token)
  | [] => .err
  | t :: ts => if t.kind ≠ .listStart then .err else skipToListEnd ts

/-- skipListStructs (ingest.go 152-177), the loop.  The number bounds the turns: `panic` stands for
its running out, which `ingest_total` excludes. -/
def skipStructs : Nat → List Token → Out (List Token)
  | _, [] => .err
  | 0, _ => .panic
  | n + 1, t :: ts =>
    if t.kind = .listEnd then .ok ts
    else match skipStruct (t :: ts) with
      | .ok ts' => skipStructs n ts'
      | .err => .err
      | .panic => .panic

/-- skipListStructs (ingest.go 152-177). -/
def skipListStructs (n : Nat) : List Token → Out (List Token)
  | [] => .err
  | t :: ts => if t.kind ≠ .listStart then .err else skipStructs n ts

mutual

/-- skipMap (ingest.go 180-214). -/
def skipMap : Nat → FT → List Token → Out (List Token)
  | 0, _, _ => .panic
  | _ + 1, _, [] => .err
  | n + 1, vt, t :: ts => if t.kind ≠ .mapStart then .err else skipEntries n vt ts

/-- skipMap, the loop (ingest.go 189-213). -/
def skipEntries : Nat → FT → List Token → Out (List Token)
  | 0, _, _ => .panic
  | _ + 1, _, [] => .err
  | n + 1, vt, t :: ts =>
    if t.kind = .mapEnd then .ok ts
    else if t.kind ≠ .mapEntry then .err
    else if vt = .struct then
      match skipStruct ts with
      | .ok ts' => skipEntries n vt ts'
      | .err => .err
      | .panic => .panic
    else if vt = .map then
      match skipMap n t.valueType ts with
      | .ok ts' => skipEntries n vt ts'
      | .err => .err
      | .panic => .panic
    else skipEntries n vt ts

end

/-- SkipValue (ingest.go 71-100). -/
def skipValue (n : Nat) (tok : Token) (ts : List Token) : Out (List Token) :=
  match tok.type with
  | .struct => if tok.isNil then .ok ts else skipStruct ts
  | .listStructs => if tok.isNil then .ok ts else skipListStructs n ts
  | .listBools | .listInt8 | .listInt16 | .listInt32 | .listInt64
  | .listUint8 | .listUint16 | .listUint32 | .listUint64
  | .listFloat32 | .listFloat64 | .listBytes | .listStrings =>
    if tok.isNil then .ok ts else skipList ts
  | .map => if tok.isNil then .ok ts else skipMap n tok.valueType ts
  | _ => .ok ts

/-! ### Ingest -/

/-- The value a token gives for a scalar or enum type (clawingest.tmpl 74-114, and for items
154-352): an enum is read by name when the token has text. -/
def tokNum (t : FT) (e : Option EnumT) (tok : Token) : UInt64 :=
  match e with
  | none => norm t tok.data
  | some e => if tok.bytes ≠ [] then valueOf e tok.bytes else norm t tok.data

/-- The loop over the items of a list of scalars, strings, bytes or Any: every token up to the list
end is an item, whatever its kind (clawingest.tmpl 133-146). -/
def listItems : List Token → Out (List Token × List Token)
  | [] => .err
  | t :: ts =>
    if t.kind = .listEnd then .ok ([], ts)
    else match listItems ts with
      | .ok (items, rest) => .ok (t :: items, rest)
      | .err => .err
      | .panic => .panic

/-- The start of a list, then its items (clawingest.tmpl 129-146). -/
def readList : List Token → Out (List Token × List Token)
  | [] => .err
  | t :: ts => if t.kind ≠ .listStart then .err else listItems ts

/-- The Go order on keys (`compareKeys`, segment/maps.go 189-222). -/
def keyCmp (k : FT) : Key → Key → Int
  | .str a, .str b => goCompareStr a b
  | .num a, .num b =>
    match k with
    | .int8 | .int16 | .int32 | .int64 => goCompare false false a.toInt64.toInt b.toInt64.toInt
    | .float32 => goCompare (F32.isNaN ⟨a.toUInt32⟩) (F32.isNaN ⟨b.toUInt32⟩)
        (F32.value ⟨a.toUInt32⟩) (F32.value ⟨b.toUInt32⟩)
    | .float64 => goCompare (F64.isNaN ⟨a⟩) (F64.isNaN ⟨b⟩) (F64.value ⟨a⟩) (F64.value ⟨b⟩)
    | _ => goCompare false false a.toNat b.toNat
  | .str _, .num _ => 1
  | .num _, .str _ => -1

/-- `Maps.Set` (segment/maps.go): the keys stay in order.  Its binary search is modelled in
`Verif.Model.Maps`; here the position is found by going through the keys. -/
def mapSet (k : FT) (key : Key) (v : Val) : List Key → List Val → List Key × List Val
  | a :: ks, x :: vs =>
    if keyCmp k a key < 0 then
      let r := mapSet k key v ks vs
      (a :: r.1, x :: r.2)
    else if keyCmp k a key = 0 then (a :: ks, v :: vs)
    else (key :: a :: ks, v :: x :: vs)
  | _, _ => ([key], [v])

/-- The key of an entry (clawingest.tmpl 453-477). -/
def tokKey (k : FT) (tok : Token) : Key :=
  match k with
  | .string => .str tok.keyBytes
  | _ => .num (norm k tok.key)

/-- `var h [16]byte; if len(x) == 16 { copy(h[:], x) }` (clawingest.tmpl 514-516, 534-536). -/
def hash16 (h : Bytes) : Bytes := if h.length = 16 then h else List.replicate 16 0

/-- Append to a list of numbers. -/
def appendNums : Val → List UInt64 → Val
  | .nums old, ds => .nums (old ++ ds)
  | v, _ => v

/-- Append to a list of strings or bytes. -/
def appendBins : Val → List Bytes → Val
  | .bins old, bs => .bins (old ++ bs)
  | v, _ => v

/-- Append to a list of structs. -/
def appendRec : Val → List Val → Val
  | .list old, fs => .list (old ++ [.obj fs])
  | v, _ => v

/-- `m.Set(key, value)` on a map field. -/
def mapPut (k : FT) (key : Key) (v : Val) : Val → Val
  | .map ks vs => .map (mapSet k key v ks vs).1 (mapSet k key v ks vs).2
  | m => m

/-- SetAnyRaw (segment/any.go 243-278) on the accessor's value. -/
def setAnyRaw (hash data : Bytes) : Out Val :=
  if data = [] then .ok .null
  else if hash.length ≠ 16 then .err
  else .ok (.any hash data)

/-- SetListAnyRaw (segment/any.go 464-508). -/
def setListAnyRaw (items : List Token) : Out Val :=
  if items.all fun t => t.typeHash.length = 16 then
    .ok (.anys (items.map fun t => (t.typeHash, t.bytes)))
  else .err

/-- The field number that a name selects in the `switch` (clawingest.tmpl 72-73). -/
def fieldIdx (ds : List Decl) (name : Str) : Option Nat := ds.findIdx? fun d => d.name = name

mutual

/-- XXXIngestFrom (clawingest.tmpl 50-57): `x` is the struct to fill; gives the struct and the tokens
left.  The first number bounds the depth of calls and turns: `panic` stands for its running out,
which `ingest_total` excludes. -/
def ingestFrom (env : Env) (ignore : Bool) : Nat → Nat → List Val → List Token →
    Out (List Val × List Token)
  | 0, _, _, _ => .panic
  | _ + 1, _, _, [] => .err
  | n + 1, s, x, t :: ts => if t.kind ≠ .structStart then .err else ingestLoop env ignore n s x ts

/-- XXXIngestFrom, the loop over the fields (clawingest.tmpl 59-586). -/
def ingestLoop (env : Env) (ignore : Bool) : Nat → Nat → List Val → List Token →
    Out (List Val × List Token)
  | 0, _, _, _ => .panic
  | _ + 1, _, _, [] => .err
  | n + 1, s, x, tok :: ts =>
    match tok.kind with
    | .structEnd => .ok (x, ts)
    | .field =>
      match fieldIdx (env s) tok.name with
      | some i =>
        match (env s)[i]?, x[i]? with
        | some d, some old =>
          match ingestField env ignore n d.ty old tok ts with
          | .ok (v, ts') => ingestLoop env ignore n s (x.set i v) ts'
          | .err => .err
          | .panic => .panic
        | _, _ => .err
      | none =>
        if ignore then
          match skipValue n tok ts with
          | .ok ts' => ingestLoop env ignore n s x ts'
          | .err => .err
          | .panic => .panic
        else .err
    | _ => .err

/-- One case of the `switch` (clawingest.tmpl 74-576): the new value of the field. -/
def ingestField (env : Env) (ignore : Bool) : Nat → Ty → Val → Token → List Token →
    Out (Val × List Token)
  | 0, _, _, _, _ => .panic
  | n + 1, ty, old, tok, ts =>
    match ty with
    | .num t e => .ok (.num (tokNum t e tok), ts)
    | .str => .ok (.bin tok.bytes, ts)
    | .bytes => .ok (.bin tok.bytes, ts)
    | .struct s =>
      if tok.isNil then .ok (old, ts)
      else match ingestFrom env ignore n s (fresh env s) ts with
        | .ok (fs, ts') => .ok (.obj fs, ts')
        | .err => .err
        | .panic => .panic
    | .listNum t e =>
      if tok.isNil then .ok (old, ts)
      else match readList ts with
        | .ok (items, ts') => .ok (appendNums old (items.map (tokNum t e)), ts')
        | .err => .err
        | .panic => .panic
    | .listStr | .listBytes =>
      if tok.isNil then .ok (old, ts)
      else match readList ts with
        | .ok (items, ts') => .ok (appendBins old (items.map (·.bytes)), ts')
        | .err => .err
        | .panic => .panic
    | .listStruct s =>
      if tok.isNil then .ok (old, ts)
      else match ts with
        | [] => .err
        | t :: ts' => if t.kind ≠ .listStart then .err else ingestItems env ignore n s old ts'
    | .map k v =>
      if tok.isNil then .ok (old, ts)
      else match ts with
        | [] => .err
        | t :: ts' => if t.kind ≠ .mapStart then .err else ingestEntries env ignore n k v old ts'
    | .any =>
      if tok.isNil then .ok (old, ts)
      else match setAnyRaw tok.typeHash tok.bytes with
        | .ok v => .ok (v, ts)
        | .err => .err
        | .panic => .panic
    | .listAny =>
      if tok.isNil then .ok (old, ts)
      else match readList ts with
        | .ok (items, ts') =>
          match setListAnyRaw items with
          | .ok v => .ok (v, ts')
          | .err => .err
          | .panic => .panic
        | .err => .err
        | .panic => .panic

/-- The items of a list of structs (clawingest.tmpl 421-435). -/
def ingestItems (env : Env) (ignore : Bool) : Nat → Nat → Val → List Token →
    Out (Val × List Token)
  | 0, _, _, _ => .panic
  | _ + 1, _, _, [] => .err
  | n + 1, s, old, t :: ts =>
    if t.kind = .listEnd then .ok (old, ts)
    else match ingestFrom env ignore n s (fresh env s) (t :: ts) with
      | .ok (fs, ts') => ingestItems env ignore n s (appendRec old fs) ts'
      | .err => .err
      | .panic => .panic

/-- The entries of a map (clawingest.tmpl 441-541).  For a value type of the last branch the generated
code has no `m.Set` (and is rejected by the Go compiler, `key` being unused): the model drops the entry. -/
def ingestEntries (env : Env) (ignore : Bool) : Nat → FT → MTy → Val → List Token →
    Out (Val × List Token)
  | 0, _, _, _, _ => .panic
  | _ + 1, _, _, _, [] => .err
  | n + 1, k, v, old, tok :: ts =>
    if tok.kind = .mapEnd then .ok (old, ts)
    else if tok.kind ≠ .mapEntry then .err
    else match v with
      | .num t => ingestEntries env ignore n k v (mapPut k (tokKey k tok) (.num (norm t tok.data)) old) ts
      | .str => ingestEntries env ignore n k v (mapPut k (tokKey k tok) (.bin tok.bytes) old) ts
      | .any => ingestEntries env ignore n k v
          (mapPut k (tokKey k tok) (.any (hash16 tok.typeHash) tok.bytes) old) ts
      | .struct s =>
        match ingestFrom env ignore n s (fresh env s) ts with
        | .ok (fs, ts') => ingestEntries env ignore n k v (mapPut k (tokKey k tok) (.obj fs) old) ts'
        | .err => .err
        | .panic => .panic
      | .listAny =>
        match readList ts with
        | .ok (items, ts') => ingestEntries env ignore n k v
            (mapPut k (tokKey k tok) (.anys (items.map fun t => (hash16 t.typeHash, t.bytes))) old) ts'
        | .err => .err
        | .panic => .panic
      | .other _ => ingestEntries env ignore n k v old ts

end

/-- The calls and turns that suffice for a stream: see `ingest_total`. -/
def turns (toks : List Token) : Nat := 3 * toks.length + 3

/-- Ingest (clawingest.tmpl 29-47): tokens after the end of the struct are not read. -/
def ingest (env : Env) (ignore : Bool) (s : Nat) (x : List Val) (toks : List Token) : Out (List Val) :=
  match ingestFrom env ignore (turns toks) s x toks with
  | .ok (x', _) => .ok x'
  | .err => .err
  | .panic => .panic

end Claw.Tok
