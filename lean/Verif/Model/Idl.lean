import Verif.Model.GoStr

/-!
# The schema compiler front end

`/repo/clawc/internal/idl/idl.go`: the parsing of an `Enum` block and of a `Struct` block, the
ordering of enumerators for the templates, and the reading of field and map types.

Simplifications.
* The line lexer `github.com/johnsiilver/halfpike` is not in `/repo`.  A line is the list of its
  items, the last being the end-of-line or end-of-file item; `eof` says which.  `p.Next()` pops
  the first line; past the last line it gives an end-of-file line.
* The Unicode tables and the decoding of a string into runes are parameters (`Uni`).
* Error texts and line numbers are left out: an error is `err`.
* Go maps are association lists; a range over a map visits the pairs in some order, which the
  theorems quantify over.
-/

namespace Claw.Idl

open Claw.Str

/-- What a parsing function gives: a value, a Go `error`, or a run-time panic. -/
inductive Out (α : Type) where
  | ok (a : α)
  | err
  | panic
  deriving DecidableEq, Repr

namespace Out

def bind {α β : Type} : Out α → (α → Out β) → Out β
  | ok a, f => f a
  | err, _ => err
  | panic, _ => panic

instance : Monad Out where
  pure := ok
  bind := bind

@[simp] theorem pure_eq {α} (a : α) : (pure a : Out α) = ok a := rfl
@[simp] theorem ok_bind {α β} (a : α) (f : α → Out β) : (ok a >>= f) = f a := rfl
@[simp] theorem err_bind {α β} (f : α → Out β) : (err >>= f) = err := rfl
@[simp] theorem panic_bind {α β} (f : α → Out β) : (panic >>= f) = panic := rfl

theorem bind_eq_ok {α β} {x : Out α} {f : α → Out β} {b : β} :
    (x >>= f) = ok b ↔ ∃ a, x = ok a ∧ f a = ok b := by
  cases x <;> simp [Bind.bind, bind]

/-- `if !c { return error }`. -/
def guard (c : Bool) : Out Unit := if c then ok () else err

/-- A lookup whose failure is an error. -/
def ofOption {α : Type} : Option α → Out α
  | some a => ok a
  | none => err

end Out

/-- Package `unicode` and the conversion `[]rune(s)`. -/
structure Uni where
  runes : Str → List Nat
  isLower : Nat → Bool
  isUpper : Nat → Bool
  isLetter : Nat → Bool
  isNumber : Nat → Bool

/-- A `halfpike.Line`. -/
structure Line where
  items : List Str
  eof : Bool
  deriving DecidableEq, Repr

/-- `l.Items[i].Val`: out of range is a panic. -/
def Line.item (l : Line) (i : Nat) : Out Str :=
  match l.items[i]? with
  | some s => .ok s
  | none => .panic

/-- isComment (idl.go 1636-1638; the same test is spelled out at 617 and 1236). -/
def isComment (s : Str) : Bool := hasPrefix (lit "//") s

/-- commentOrEOL (idl.go 1655-1665). -/
def commentOrEOL (l : Line) (from_ : Nat) : Out Unit := do
  let s ← l.item from_
  if isComment s then .ok ()
  else .guard ((l.items.drop from_).length ≤ 1)

/-- validateIdent (idl.go 1691-1711).  `runes[0]` of an empty identifier is a panic. -/
def validateIdent (u : Uni) (s : Str) : Out Unit :=
  match u.runes s with
  | [] => .panic
  | r :: rs => do
    .guard (!u.isLower r)
    .guard (u.isLetter r)
    .guard (rs.all fun r => u.isLetter r || u.isNumber r)

/-- The decimal digits of `strconv.Atoi`. -/
def digitsFrom (acc : Nat) : Str → Option Nat
  | [] => some acc
  | c :: s => if 48 ≤ c ∧ c ≤ 57 then digitsFrom (acc * 10 + (c.toNat - 48)) s else none

/-- An unsigned run of at least one digit. -/
def digits : Str → Option Nat
  | [] => none
  | c :: s => digitsFrom 0 (c :: s)

/-- `strconv.Atoi` with a 64-bit `int`: an optional sign, then decimal digits, in range. -/
def atoi : Str → Option Int
  | 43 :: s => (digits s).bind fun n => if n < 2 ^ 63 then some (n : Int) else none
  | 45 :: s => (digits s).bind fun n => if n ≤ 2 ^ 63 then some (-(n : Int)) else none
  | s => (digits s).bind fun n => if n < 2 ^ 63 then some (n : Int) else none

/-- `strings.Split(s, "@")[1]` for a string that starts with `@`. -/
def afterAt (s : Str) : Str := (s.drop 1).takeWhile (· ≠ 64)

/-- The number of `@{{Number}}` (idl.go 637-644 and 1471-1479). -/
def atNumber (s : Str) : Out Int := do
  .guard (hasPrefix (lit "@") s)
  .ofOption (atoi (afterAt s))

/-- `uint16(n)` of a Go `int`. -/
def toUint16 (n : Int) : Nat := (n % 65536).toNat

/-- A Go map as an association list. -/
def assocGet {κ α : Type} [DecidableEq κ] (k : κ) (m : List (κ × α)) : Option α :=
  (m.find? fun p => p.1 = k).map (·.2)

/-- `m[k] = v`. -/
def assocSet {κ α : Type} [DecidableEq κ] (k : κ) (v : α) (m : List (κ × α)) : List (κ × α) :=
  m.filter (fun p => p.1 ≠ k) ++ [(k, v)]

/-- `slices.SortFunc`, `sort.Slice`: a sort that need not be stable, which shows only between equal keys. -/
def insertBy {α : Type} (le : α → α → Bool) (a : α) : List α → List α
  | [] => [a]
  | b :: l => if le a b then a :: b :: l else b :: insertBy le a l

def sortBy {α : Type} (le : α → α → Bool) : List α → List α
  | [] => []
  | a :: l => insertBy le a (sortBy le l)

/-! ## Enums -/

/-- EnumVal (idl.go 568-574). -/
structure EnumVal where
  comment : List Str
  name : Str
  value : Nat
  deriving DecidableEq, Repr

/-- Enum (idl.go 505-513). -/
structure Enum where
  name : Str
  size : Nat
  names : List (Str × EnumVal)
  values : List (Nat × EnumVal)
  deriving DecidableEq, Repr

/-- The comment text of a comment line (idl.go 618-624 and 1237-1243): its items after the first
without end-of-line items.  The joining by spaces is left out. -/
def commentText (l : Line) : List Str := (l.items.drop 1).filter (· ≠ lit "\n")

/-- One enumerator line (idl.go 628-660). -/
def enumEntry (u : Uni) (comment : List Str) (e : Enum) (l : Line) : Out Enum := do
  .guard (3 ≤ l.items.length)
  let name ← l.item 0
  validateIdent u name
  .guard (assocGet name e.names).isNone
  let num ← l.item 1
  let n ← atNumber num
  .guard (0 ≤ n)
  .guard (assocGet (toUint16 n) e.values).isNone
  let v : EnumVal := ⟨comment, name, toUint16 n⟩
  let e := { e with names := assocSet v.name v e.names, values := assocSet v.value v e.values }
  commentOrEOL l 2
  return e

/-- The loop of Enum.parse over the lines of the block (idl.go 601-661), and what follows the
loop (662-669).  The rest of the lines is given back. -/
def enumLoop (u : Uni) (pending : List Str) (e : Enum) : List Line → Out (Enum × List Line)
  | [] => .err
  | l :: ls => do
    let first ← l.item 0
    if first = lit "}" then do
      commentOrEOL l 1
      .guard (!e.names.isEmpty)
      commentOrEOL l 1
      return (e, ls)
    else if l.eof then .err
    else if isComment first then enumLoop u (pending ++ commentText l) e ls
    else do
      let e ← enumEntry u pending e l
      enumLoop u [] e ls

/-- The size of an enum in bits (the switch in Enum.parse, idl.go 576-670). -/
def enumWidth (width : Str) : Out Nat :=
  if width = lit "uint8" then .ok 8
  else if width = lit "uint16" then .ok 16
  else .err

/-- Enum.parse (idl.go 576-670). -/
def parseEnum (u : Uni) : List Line → Out (Enum × List Line)
  | [] => .err
  | l :: ls => do
    .guard (5 ≤ l.items.length)
    let name ← l.item 1
    validateIdent u name
    let width ← l.item 2
    let size ← enumWidth width
    let brace ← l.item 3
    .guard (brace = lit "{")
    commentOrEOL l 4
    enumLoop u [] ⟨name, size, [], []⟩ ls

/-- The first loop of OrderByValues and OrderByNames (idl.go 519-526 and 537-541):
`for i, v := range e.values { l[i] = v }` on a slice of `len(e.values)` zero values, where `i` is
the key of the map.  Storing outside the slice is a panic. -/
def fill (pairs : List (Nat × EnumVal)) : Out (List EnumVal) :=
  pairs.foldlM (fun l p => if p.1 < l.length then .ok (l.set p.1 p.2) else .panic)
    (List.replicate pairs.length ⟨[], [], 0⟩)

/-- Bytewise comparison of Go strings, `cmp.Compare(a, b) <= 0`. -/
def strLe : Str → Str → Bool
  | [], _ => true
  | _ :: _, [] => false
  | a :: s, b :: t => a < b || (a == b && strLe s t)

/-- Enum.OrderByValues (idl.go 518-533); `pairs` is the map in the order the range visits it. -/
def orderByValues (pairs : List (Nat × EnumVal)) : Out (List EnumVal) := do
  let l ← fill pairs
  return sortBy (fun a b => a.value ≤ b.value) l

/-- Enum.OrderByNames (idl.go 535-548). -/
def orderByNames (pairs : List (Nat × EnumVal)) : Out (List EnumVal) := do
  let l ← fill pairs
  return sortBy (fun a b => strLe a.name b.name) l

/-! ## Field types -/

/-- field.Type (field.go 13-46), by name. -/
inductive FT where
  | unknown | bool | int8 | int16 | int32 | int64 | uint8 | uint16 | uint32 | uint64
  | float32 | float64 | string | bytes | struct | any
  | listBools | listInt8 | listInt16 | listInt32 | listInt64 | listUint8 | listUint16
  | listUint32 | listUint64 | listFloat32 | listFloat64 | listBytes | listStrings
  | listStructs | listAny | map
  deriving DecidableEq, Repr

/-- parseScalarType (idl.go 1588-1621). -/
def parseScalarType (s : Str) : Option FT :=
  if s = lit "bool" then some .bool
  else if s = lit "int8" then some .int8
  else if s = lit "int16" then some .int16
  else if s = lit "int32" then some .int32
  else if s = lit "int64" then some .int64
  else if s = lit "uint8" then some .uint8
  else if s = lit "uint16" then some .uint16
  else if s = lit "uint32" then some .uint32
  else if s = lit "uint64" then some .uint64
  else if s = lit "float32" then some .float32
  else if s = lit "float64" then some .float64
  else if s = lit "string" then some .string
  else if s = lit "bytes" then some .bytes
  else if s = lit "Any" then some .any
  else none

/-- The plain cases of the type switch of Struct.field (idl.go 1298-1363). -/
def plainType (s : Str) : Option FT :=
  if s = lit "bool" then some .bool
  else if s = lit "uint8" then some .uint8
  else if s = lit "uint16" then some .uint16
  else if s = lit "uint32" then some .uint32
  else if s = lit "uint64" then some .uint64
  else if s = lit "int8" then some .int8
  else if s = lit "int16" then some .int16
  else if s = lit "int32" then some .int32
  else if s = lit "int64" then some .int64
  else if s = lit "float32" then some .float32
  else if s = lit "float64" then some .float64
  else if s = lit "string" then some .string
  else if s = lit "bytes" then some .bytes
  else if s = lit "[]bool" then some .listBools
  else if s = lit "[]uint8" then some .listUint8
  else if s = lit "[]uint16" then some .listUint16
  else if s = lit "[]uint32" then some .listUint32
  else if s = lit "[]uint64" then some .listUint64
  else if s = lit "[]int8" then some .listInt8
  else if s = lit "[]int16" then some .listInt16
  else if s = lit "[]int32" then some .listInt32
  else if s = lit "[]int64" then some .listInt64
  else if s = lit "[]float32" then some .listFloat32
  else if s = lit "[]float64" then some .listFloat64
  else if s = lit "[]string" then some .listStrings
  else if s = lit "[]bytes" then some .listBytes
  else if s = lit "Any" then some .any
  else if s = lit "[]Any" then some .listAny
  else none

/-- field.IsListType (field.go 50-52). -/
def FT.isList : FT → Bool
  | .listBools | .listInt8 | .listInt16 | .listInt32 | .listInt64 | .listUint8 | .listUint16
  | .listUint32 | .listUint64 | .listFloat32 | .listFloat64 | .listBytes | .listStrings
  | .listStructs | .listAny => true
  | _ => false

/-- field.IsValidMapKeyType (field.go 66-75). -/
def FT.isKey : FT → Bool
  | .bool | .string | .int8 | .int16 | .int32 | .int64 | .uint8 | .uint16 | .uint32 | .uint64
  | .float32 | .float64 => true
  | _ => false

/-- field.IsValidMapValueType (field.go 79-88). -/
def FT.isMapValue : FT → Bool
  | .bool | .string | .bytes | .struct | .map | .any | .listAny
  | .int8 | .int16 | .int32 | .int64 | .uint8 | .uint16 | .uint32 | .uint64
  | .float32 | .float64 => true
  | _ => false

/-- What parseMapType gives back: the key type with the value type and the struct name of the
value (empty if it has none), or, for a value that is itself a map (`FTMap`), its MapTypeInfo. -/
inductive MapInfo where
  | flat (key val : FT) (ident : Str)
  | nested (key : FT) (inner : MapInfo)
  deriving DecidableEq, Repr

/-- The scan for the bracket that closes the key (idl.go 1505-1521): the text before it and the
text after it. -/
def scanKey (depth : Nat) : Str → Option (Str × Str)
  | [] => none
  | c :: s =>
    if c = 91 then (scanKey (depth + 1) s).map fun p => (c :: p.1, p.2)
    else if c = 93 then
      if depth = 1 then some ([], s)
      else (scanKey (depth - 1) s).map fun p => (c :: p.1, p.2)
    else (scanKey depth s).map fun p => (c :: p.1, p.2)

/-- `strings.Split(s, ".")`. -/
def splitDot : Str → List Str
  | [] => [[]]
  | c :: s =>
    match splitDot s with
    | [] => [[c]]
    | p :: ps => if c = 46 then [] :: p :: ps else (c :: p) :: ps

/-- What the front end knows of a top level identifier. -/
inductive Ident where
  | enum (size : Nat)
  | struct
  deriving DecidableEq, Repr

/-- The parts of File the parsing of a struct reads and writes: the identifiers declared so far,
the names of the imported packages, and the keys of External. -/
structure Ctx where
  idents : List (Str × Ident)
  imports : List Str
  external : List Str
  deriving DecidableEq, Repr

/-- A map value type of the form `pkg.Type` (idl.go 1565-1574). -/
def noteMapExternal (c : Ctx) (ty : Str) : Out Ctx :=
  match splitDot ty with
  | [pkg, _] => do
    .guard (decide (pkg ∈ c.imports))
    .ok { c with external := ty :: c.external }
  | _ => .ok c

/-- parseMapType (idl.go 1497-1585).  The recursion of the code is on a proper suffix of the
text; `fuel` bounds it, and the length of the text is enough. -/
def parseMapType : Nat → Ctx → Str → Out (MapInfo × Ctx)
  | 0, _, _ => .err
  | fuel + 1, c, s => do
    .guard (hasPrefix (lit "map[") s)
    let (keyStr, valueStr) ← Out.ofOption (scanKey 1 (s.drop 4))
    let key ← Out.ofOption (parseScalarType keyStr)
    .guard key.isKey
    if hasPrefix (lit "map[") valueStr then do
      let (inner, c) ← parseMapType fuel c valueStr
      return (.nested key inner, c)
    else if valueStr = lit "[]Any" then return (.flat key .listAny [], c)
    else match parseScalarType valueStr with
      | some val => do
        .guard (val.isMapValue || val = .struct)
        return (.flat key val [], c)
      | none => do
        let c ← noteMapExternal c valueStr
        return (.flat key .struct valueStr, c)

/-- StructField (idl.go 675-723) without the parts that only copy names around (Package,
FullPath, IsExternal and their map counterparts). -/
structure Field where
  comment : List Str
  name : Str
  index : Nat
  type : FT
  isList : Bool
  isEnum : Bool
  identName : Str
  selfRef : Bool
  map : Option MapInfo
  deriving DecidableEq, Repr

/-- `strings.Trim(s, ".")`. -/
def trimDots (s : Str) : Str :=
  ((s.dropWhile (· = 46)).reverse.dropWhile (· = 46)).reverse

/-- `strings.Split(s, "[]")[1]` for a string that starts with `[]`: what lies between the first
`[]` and the next one. -/
def afterBrackets : Str → Str
  | 91 :: 93 :: _ => []
  | c :: s => c :: afterBrackets s
  | [] => []

/-- The type of an enum of the given width (idl.go 1412-1433, 1100-1118 and 1142-1160). -/
def enumType (size : Nat) (isList : Bool) : Option FT :=
  if size = 8 then some (if isList then .listUint8 else .uint8)
  else if size = 16 then some (if isList then .listUint16 else .uint16)
  else none

/-- The type of a struct reference. -/
def structType (isList : Bool) : FT := if isList then .listStructs else .struct

/-- A field type of the form `pkg.Type` (idl.go 1451-1461). -/
def noteExternal (c : Ctx) (ft : Str) : Out Ctx :=
  if (trimDots ft).count 46 = 1 then do
    .guard (decide ((splitDot ft).headD [] ∈ c.imports))
    .ok { c with external := ft :: c.external }
  else .ok c

/-- A field whose type is an identifier, after `[]` was taken off (idl.go 1386-1468).
`self` is the name of the struct being parsed. -/
def refType (c : Ctx) (self : Str) (f : Field) (isList : Bool) (ft : Str) : Out (Field × Ctx) :=
  if self = ft then do
    .guard (assocGet ft c.idents).isNone
    return ({ f with identName := self, selfRef := true, type := structType isList,
                     isList := isList }, c)
  else match assocGet ft c.idents with
    | some (.enum size) =>
      match enumType size isList with
      | some t => .ok ({ f with identName := ft, type := t, isList := isList, isEnum := true }, c)
      | none => .panic
    | some .struct =>
      .ok ({ f with identName := ft, type := structType isList, isList := isList }, c)
    | none => do
      let c ← noteExternal c ft
      return ({ f with identName := ft, type := .unknown, isList := isList }, c)

/-- The type switch of Struct.field (idl.go 1298-1469): the field without its number. -/
def fieldType (c : Ctx) (self : Str) (f : Field) (ft : Str) : Out (Field × Ctx) :=
  match plainType ft with
  | some t => .ok ({ f with type := t, isList := t.isList }, c)
  | none =>
    if hasPrefix (lit "map[") ft then do
      let (m, c) ← parseMapType ft.length c ft
      return ({ f with type := .map, map := some m }, c)
    else if hasPrefix (lit "[]") ft then refType c self f true (afterBrackets (ft.drop 2))
    else refType c self f false ft

/-- Struct.field (idl.go 1286-1493). -/
def parseField (u : Uni) (self : Str) (c : Ctx) (comment : List Str) (l : Line) :
    Out (Field × Ctx) := do
  .guard (!l.eof)
  .guard (3 ≤ l.items.length)
  let name ← l.item 0
  validateIdent u name
  let ty ← l.item 1
  let (f, c) ← fieldType c self ⟨comment, name, 0, .unknown, false, false, [], false, none⟩ ty
  let num ← l.item 2
  let i ← atNumber num
  .guard (i ≤ 65535)
  commentOrEOL l 3
  return ({ f with index := toUint16 i }, c)

/-! ## Structs -/

/-- The loop of Struct.fields over the lines of the block (idl.go 1221-1254), and the checks that
follow it before the numbers are looked at (1255-1261). -/
def fieldsLoop (u : Uni) (self : Str) (c : Ctx) (pending : List Str) (fs : List Field) :
    List Line → Out (List Field × Ctx × List Line)
  | [] => .err
  | l :: ls => do
    let first ← l.item 0
    if first = lit "}" then do
      commentOrEOL l 1
      .guard (!fs.isEmpty)
      commentOrEOL l 1
      return (fs, c, ls)
    else if l.eof then .err
    else if isComment first then fieldsLoop u self c (pending ++ commentText l) fs ls
    else do
      let (f, c) ← parseField u self c pending l
      fieldsLoop u self c [] (fs ++ [f]) ls

/-- The check of the field numbers (idl.go 1263-1274); `ids` is the slice of seen numbers. -/
def checkIds (ids : List Bool) : List Field → Out Unit
  | [] => .ok ()
  | f :: fs =>
    if f.index ≥ ids.length then .err
    else if ids[f.index]? = some true then .err
    else checkIds (ids.set f.index true) fs

/-- Struct.fields (idl.go 1218-1284). -/
def parseFields (u : Uni) (self : Str) (c : Ctx) (ls : List Line) :
    Out (List Field × Ctx × List Line) := do
  let (fs, c, ls) ← fieldsLoop u self c [] [] ls
  checkIds (List.replicate fs.length false) fs
  return (sortBy (fun a b => a.index ≤ b.index) fs, c, ls)

/-- Struct.parse (idl.go 1176-1216): the name line, then the fields. -/
def parseStruct (u : Uni) (c : Ctx) : List Line → Out (Str × List Field × Ctx × List Line)
  | [] => .err
  | l :: ls => do
    .guard (3 ≤ l.items.length)
    let name ← l.item 1
    validateIdent u name
    let brace ← l.item 2
    .guard (brace = lit "{")
    commentOrEOL l 3
    let (fs, c, ls) ← parseFields u name c ls
    return (name, fs, c, ls)

/-- The resolution of a field left open by the parser (idl.go 1085-1172); `locals` are all the
identifiers of the file, `externs` looks up an identifier of an imported package (a package whose
file was never attached panics, as does a package that is not imported). -/
def resolve (locals : List (Str × Ident)) (externs : Str → Out (List (Str × Ident))) (f : Field) :
    Out Field :=
  if f.type ≠ .unknown then .ok f
  else
    let finish (i : Option Ident) : Out Field :=
      match i with
      | some (.enum size) =>
        match enumType size f.isList with
        | some t => .ok { f with isEnum := true, type := t }
        | none => .err
      | some .struct => .ok { f with type := structType f.isList }
      | none => .err
    if 46 ∉ f.identName then finish (assocGet f.identName locals)
    else match splitDot f.identName with
      | [_, name] => do
        let ids ← externs f.identName
        finish (assocGet name ids)
      | _ => .err

/-! ## Files -/

/-- What File keeps of its blocks (idl.go 28-58): the identifiers, with the blocks in the order they were read. -/
structure File where
  ctx : Ctx
  structs : List (Str × List Field)
  enums : List Enum
  deriving DecidableEq, Repr

/-- `strings.ToLower` on ASCII letters. -/
def lower (s : Str) : Str := s.map fun c => if 65 ≤ c ∧ c ≤ 90 then c + 32 else c

/-- File.FindNext (idl.go 298-371) with CollectComments (228-253), after the package, version, options and import lines,
which are not modelled here: another such line is an error. A line that ends the file ends the loop, whatever it holds.
`fuel` bounds the number of blocks and comment lines; the number of lines is enough. -/
def fileLoop (u : Uni) : Nat → File → List Line → Out File
  | 0, f, ls => if ls.isEmpty then .ok f else .err
  | _ + 1, f, [] => .ok f
  | fuel + 1, f, l :: ls =>
    if l.eof then .ok f
    else do
      let first ← l.item 0
      if isComment first then fileLoop u fuel f ls
      else if lower first = lit "enum" then do
        let (e, rest) ← parseEnum u (l :: ls)
        .guard (assocGet e.name f.ctx.idents).isNone
        fileLoop u fuel { f with ctx := { f.ctx with idents := assocSet e.name (.enum e.size) f.ctx.idents },
                                 enums := f.enums ++ [e] } rest
      else if lower first = lit "struct" then do
        let (name, fs, c, rest) ← parseStruct u f.ctx (l :: ls)
        .guard (assocGet name c.idents).isNone
        fileLoop u fuel { f with ctx := { c with idents := assocSet name .struct c.idents },
                                 structs := f.structs ++ [(name, fs)] } rest
      else .err

/-- The blocks of a file with the given imported packages. -/
def parseFile (u : Uni) (imports : List Str) (ls : List Line) : Out File :=
  fileLoop u ls.length ⟨⟨[], imports, []⟩, [], []⟩ ls

end Claw.Idl
