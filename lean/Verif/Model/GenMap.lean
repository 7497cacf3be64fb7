import Verif.Model.Idl

/-!
# The Go code that is generated for a map field

`/repo/clawc/internal/idl/idl.go` 737-886 and 1028-1031: the Go types of keys and values; `/repo/clawc/internal/idl/struct.tmpl` 558-801,
995-1025 and 1094-1112, `/repo/clawc/internal/render/golang/templates/mappings.tmpl` 44-56, clawiter.tmpl 523-688 and clawingest.tmpl
433-548: what the code asks of the package it is in.

Simplifications.
* Of the code only what may depend on the types of the map is kept, as a list of demands. What is written the same for all maps is
  left out.
* ValueIsExternal is never set (idl.go 1382-1386), so that branches on it are left out.
-/

namespace Claw.GenMap

open Claw.Idl (FT MapInfo)

/-- Go types. -/
inductive Ty where
  /-- `bool`, `int8`, …, `string` -/
  | basic (name : Str)
  | bytes
  | any
  /-- what a text that stands where Go wants a type means in the package -/
  | named (text : Str)
  | segStruct
  | anyValue
  | ptr (t : Ty)
  | slice (t : Ty)
  | map (key val : Ty)
  deriving DecidableEq, Repr

/-- fieldTypeToGoType (idl.go 857-886). -/
def goType : FT → Ty
  | .bool => .basic (lit "bool")
  | .int8 => .basic (lit "int8")
  | .int16 => .basic (lit "int16")
  | .int32 => .basic (lit "int32")
  | .int64 => .basic (lit "int64")
  | .uint8 => .basic (lit "uint8")
  | .uint16 => .basic (lit "uint16")
  | .uint32 => .basic (lit "uint32")
  | .uint64 => .basic (lit "uint64")
  | .float32 => .basic (lit "float32")
  | .float64 => .basic (lit "float64")
  | .string => .basic (lit "string")
  | .bytes => .bytes
  | _ => .any

/-- KeyType of a field (idl.go 710). -/
def keyOf : MapInfo → FT
  | .flat k _ _ => k
  | .nested k _ => k

/-- nestedMapGoType (idl.go 791-806). -/
def nestedGoType : MapInfo → Ty
  | .nested k i => .map (goType k) (nestedGoType i)
  | .flat k v n => .map (goType k) (if n ≠ [] then .ptr (.named n) else goType v)

/-- MapValueGoType (idl.go 746-762). -/
def valueGoType : MapInfo → Ty
  | .nested _ i => nestedGoType i
  | .flat _ v n => if n ≠ [] then .ptr (.named n) else goType v

/-- The switch of idl.go 781-787 and 822-829. -/
def rawLeaf (v : FT) : Ty :=
  match v with
  | .any => .ptr .anyValue
  | .listAny => .slice .anyValue
  | v => goType v

/-- nestedMapRawGoType (idl.go 809-832). -/
def nestedRawType : MapInfo → Ty
  | .nested k i => .map (goType k) (nestedRawType i)
  | .flat k v n => .map (goType k) (if n ≠ [] then .ptr (.named (n ++ lit "Raw")) else rawLeaf v)

/-- MapRawValueGoType (idl.go 765-788). -/
def rawValueType : MapInfo → Ty
  | .nested _ i => nestedRawType i
  | .flat _ v n => if n ≠ [] then .ptr (.named (n ++ lit "Raw")) else rawLeaf v

/-- What the code asks for. -/
inductive Need where
  /-- the type is an argument for a `MapKey` (maps.go 17-22) -/
  | key (t : Ty)
  /-- the type is an argument for a `MapValue` (maps.go 26-31) -/
  | value (t : Ty)
  /-- it is a type -/
  | type (t : Ty)
  /-- the expression is a `*mapping.Map` -/
  | mapping (e : Str)
  /-- the expression is a function from `*segment.Struct` to the type -/
  | wraps (e : Str) (t : Ty)
  /-- the expression makes a struct from a context and a value of the type -/
  | fromRaw (e : Str) (t : Ty)
  /-- the expression makes a struct from a context -/
  | news (e : Str)
  /-- the type is a struct that was generated: it has a field `s` and the method `XXXGetStruct` -/
  | struct (t : Ty)
  /-- a value of the first type is assigned to a variable or passed for a parameter of the second -/
  | assign (src dst : Ty)
  /-- the variable is declared in a function, and these are the variables that are used after it -/
  | uses (name : Str) (used : List Str)
  deriving DecidableEq

/-- The type of values of the `*segment.Maps` that `FooMap` returns (struct.tmpl 565, 591, 613, 679, 760). -/
def mapsValue : MapInfo → Ty
  | .nested _ i => nestedGoType i
  | .flat _ v n =>
    if n ≠ [] then .ptr .segStruct
    else if v = .any then .ptr .anyValue
    else if v = .listAny then .slice .anyValue
    else goType v

/-- struct.tmpl 558-801: `FooMap`, `FooGet`, `FooSet`, `FooDelete`, `FooHas`. -/
def accessNeeds (m : MapInfo) : List Need :=
  .key (goType (keyOf m)) ::
  match m with
  | .nested .. => [.value (valueGoType m), .type (valueGoType m), .assign (mapsValue m) (valueGoType m)]
  | .flat _ v n =>
    if n ≠ [] then
      [.mapping (lit "XXXMapping" ++ n), .type (.named n), .struct (.named n), .wraps (lit "XXXNew" ++ n ++ lit "From") (.named n)]
    else if v = .any then []
    else if v = .listAny then []
    else [.value (valueGoType m), .type (valueGoType m), .assign (mapsValue m) (valueGoType m)]

/-- The Raw struct (idl.go 1028-1031), `NewXFromRaw` (struct.tmpl 995-1025) and `ToRaw` (1094-1112). -/
def rawNeeds (m : MapInfo) : List Need :=
  .type (.map (goType (keyOf m)) (rawValueType m)) ::
  match m with
  | .flat _ _ n =>
    if n ≠ [] then
      [.fromRaw (lit "New" ++ n ++ lit "FromRaw") (.named (n ++ lit "Raw")), .struct (.named n),
       .assign (.ptr (.named (n ++ lit "Raw"))) (rawValueType m)]
    else [.assign (rawValueType m) (mapsValue m), .assign (mapsValue m) (rawValueType m)]
  | .nested .. => [.assign (rawValueType m) (mapsValue m), .assign (mapsValue m) (rawValueType m)]

/-- mappings.tmpl 48-54. -/
def mappingNeeds : MapInfo → List Need
  | .flat _ _ n => if n ≠ [] then [.mapping (lit "XXXMapping" ++ n)] else []
  | .nested .. => []

/-- The constants that clawiter.tmpl 545-569 and clawingest.tmpl 454-478 know for keys. -/
def knownKey (k : FT) : Bool :=
  match k with
  | .string | .bool | .int8 | .int16 | .int32 | .int64 | .uint8 | .uint16 | .uint32 | .uint64 | .float32 | .float64 => true
  | _ => false

/-- The constants that clawiter.tmpl 616-676 and clawingest.tmpl 488-510 know for values that are no structs, `Any` or `[]Any`. -/
def knownValue (v : FT) : Bool :=
  match v with
  | .string | .bool | .int8 | .int16 | .int32 | .int64 | .uint8 | .uint16 | .uint32 | .uint64 | .float32 | .float64 => true
  | _ => false

/-- ValueType of a field (idl.go 712): FTMap for a nested map (1554). -/
def valOf : MapInfo → FT
  | .flat _ v _ => v
  | .nested .. => .map

/-- ValueIdentName of a field: that of a nested map is in its NestedMapInfo (idl.go 1545-1553). -/
def identOf : MapInfo → Str
  | .flat _ _ n => n
  | .nested .. => []

/-- `Walk` (clawiter.tmpl 523-688): the loop `for k, v := range m.All()`. -/
def walkNeeds (m : MapInfo) : List Need :=
  let k := if knownKey (keyOf m) then [lit "k"] else []
  let v :=
    if identOf m ≠ [] then [lit "v"]
    else if valOf m = .any ∨ valOf m = .listAny then [lit "v"]
    else if knownValue (valOf m) then [lit "v"]
    else []
  [.uses (lit "k") (k ++ v), .uses (lit "v") (k ++ v)] ++
  if identOf m ≠ [] then [.wraps (lit "XXXNew" ++ identOf m ++ lit "From") (.named (identOf m)), .struct (.named (identOf m))]
  else if knownValue (valOf m) then [.assign (mapsValue m) (goType (valOf m))]
  else []

/-- `XXXIngestFrom` (clawingest.tmpl 433-548): `m` and `key` are used by `m.Set(key, …)`. -/
def ingestNeeds (m : MapInfo) : List Need :=
  let used :=
    if identOf m ≠ [] then [lit "m", lit "key"]
    else if knownValue (valOf m) then [lit "m", lit "key"]
    else if valOf m = .any ∨ valOf m = .listAny then [lit "m", lit "key"]
    else []
  (.uses (lit "m") used :: if knownKey (keyOf m) then [.uses (lit "key") used] else []) ++
  if identOf m ≠ [] then [.news (lit "New" ++ identOf m), .struct (.named (identOf m))]
  else if knownValue (valOf m) then [.assign (goType (valOf m)) (mapsValue m)]
  else []

/-- All that the code for a map field asks for. -/
def needs (m : MapInfo) : List Need := accessNeeds m ++ rawNeeds m ++ mappingNeeds m ++ walkNeeds m ++ ingestNeeds m

end Claw.GenMap
