import Verif.Model.GenGo

/-!
# The descriptions of a schema that reflection gives

`/repo/clawc/internal/render/golang/templates/reflect.tmpl`, `mappings.tmpl` 13-59, `structs.tmpl` 4-10 and `enums.tmpl` 14-23: the
descriptions in the generated code; `/repo/languages/go/reflect/internal/value/impl.go` 19-215 and
`/repo/languages/go/reflect/enums/enums.go`: the methods that read them.

Simplifications.
* Of the mapping of a field only what the description gives away is kept.
* A variable `XXXStructDescrN` or `XXXEnumGroupN` is given by its package and the name N.
-/

namespace Claw.Descr

open Claw.Idl
open Claw.GenGo (mapOut isExternal)

/-- EnumImpl (enums.go 96-120; reflect.tmpl 29-33). -/
structure EnumD where
  name : Str
  number : Nat
  size : Nat
  deriving DecidableEq, Repr

/-- EnumGroupImpl (enums.go 13-24; reflect.tmpl 22-36). -/
structure Group where
  name : Str
  len : Nat
  size : Nat
  descrs : List EnumD
  deriving DecidableEq, Repr

/-- A variable of this package or, with its name, of another one. -/
structure Ref where
  pkg : Option Str
  name : Str
  deriving DecidableEq, Repr

/-- FieldDescrImpl (impl.go 146-151) with what it reads of the mapping (mapping.go 60-98). -/
structure FieldD where
  name : Str
  type : FT
  num : Nat
  isEnum : Bool
  key : FT
  value : FT
  sd : Option Ref
  eg : Option Ref
  deriving DecidableEq, Repr

/-- StructDescrImpl (impl.go 85-94). -/
structure StructD where
  name : Str
  pkg : Str
  path : Str
  fields : List FieldD
  deriving DecidableEq, Repr

/-- PackageDescrImpl (impl.go 19-30): the lists are nil if the template leaves them out. -/
structure PkgD where
  name : Str
  path : Str
  imports : List Str
  enums : Option (List Group)
  structs : Option (List StructD)
  deriving DecidableEq, Repr

/-! ## What is generated -/

/-- reflect.tmpl 21-37; Len is the number of names (idl.go 514-516), and the values are put in order (518-533). -/
def group (e : Enum) : Out Group := do
  let vs ← orderByValues e.values
  return ⟨e.name, e.names.length, e.size, vs.map fun v => ⟨v.name, v.value, e.size⟩⟩

/-- Package and IdentInFile (idl.go 908-919) for a type of another package, IdentName otherwise. -/
def ref (f : Field) : Out Ref :=
  if isExternal f then
    match splitDot f.identName with
    | [p, n] => .ok ⟨some p, n⟩
    | _ => .panic
  else .ok ⟨none, f.identName⟩

/-- KeyType and ValueType (mappings.tmpl 45-48; idl.go 1515-1560): the value of a map of maps is a map. -/
def keyValue (f : Field) : FT × FT :=
  match f.map with
  | some (.flat k v _) => (k, v)
  | some (.nested k _) => (k, .map)
  | none => (.unknown, .unknown)

/-- One field (mappings.tmpl 19-55, reflect.tmpl 60-84); `i` is its place. -/
def fieldD (i : Nat) (f : Field) : Out FieldD := do
  let d : FieldD := ⟨f.name, f.type, i, f.isEnum, (keyValue f).1, (keyValue f).2, none, none⟩
  if f.isEnum then do
    let r ← ref f
    return { d with eg := some r }
  else if f.identName ≠ [] then do
    let r ← ref f
    return { d with sd := some r }
  else return d

/-- The fields of a struct from a place on. -/
def fieldDs (i : Nat) : List Field → Out (List FieldD)
  | [] => .ok []
  | f :: fs => do
    let d ← fieldD i f
    let ds ← fieldDs (i + 1) fs
    return d :: ds

/-- One struct (reflect.tmpl 53-86) after Struct.Render has settled its fields (idl.go 1084-1172). -/
def structD (pkg path : Str) (ids : List (Str × Ident)) (externs : Str → Out (List (Str × Ident))) (s : Str × List Field) : Out StructD := do
  let fs ← mapOut (resolve ids externs) s.2
  let ds ← fieldDs 0 fs
  return ⟨s.1, pkg, path, ds⟩

/-- A list that the template leaves out if it is empty (reflect.tmpl 104-116). -/
def unlessEmpty {α : Type} (l : List α) : Option (List α) := if l.isEmpty then none else some l

/-- XXXPackageDescr (reflect.tmpl 94-118), with the enums and the structs by name (idl.go 109-144). -/
def describe (pkg path : Str) (imports : List Str) (externs : Str → Out (List (Str × Ident))) (file : File) : Out PkgD := do
  let gs ← mapOut group (sortBy (fun a b => strLe a.name b.name) file.enums)
  let ss ← mapOut (structD pkg path file.ctx.idents externs) (sortBy (fun a b => strLe a.1 b.1) file.structs)
  return ⟨pkg, path, imports, unlessEmpty gs, unlessEmpty ss⟩

/-! ## What can be asked -/

/-- A method of the value that Enums() or Structs() returns (impl.go 48-55): of nil it is a panic. -/
def ofList {α β : Type} (l : Option (List α)) (f : List α → Out β) : Out β :=
  match l with
  | none => .panic
  | some l => f l

/-- Enums().Len() (enums.go 78-80) and Structs().Len() (impl.go 65-67). -/
def PkgD.enumsLen (p : PkgD) : Out Nat := ofList p.enums fun l => .ok l.length
def PkgD.structsLen (p : PkgD) : Out Nat := ofList p.structs fun l => .ok l.length

/-- `l[i]`. -/
def index {α : Type} (l : List α) (i : Nat) : Out α :=
  match l[i]? with
  | some x => .ok x
  | none => .panic

/-- Structs().Get(i) (impl.go 70-72), Enums().Get(i) (enums.go 83-85). -/
def PkgD.structAt (p : PkgD) (i : Nat) : Out StructD := ofList p.structs fun l => index l i
def PkgD.enumAt (p : PkgD) (i : Nat) : Out Group := ofList p.enums fun l => index l i

/-- Structs().ByName (impl.go 76-83), Enums().ByName (enums.go 89-91). -/
def PkgD.structByName (p : PkgD) (n : Str) : Out (Option StructD) := ofList p.structs fun l => .ok (l.find? fun s => s.name = n)
def PkgD.enumByName (p : PkgD) (n : Str) : Out (Option Group) := ofList p.enums fun l => .ok (l.find? fun g => g.name = n)

/-- XXXDescr of a struct (structs.tmpl 8-10): `i` is its place among the sorted structs of the file. -/
def xxxDescr (p : PkgD) (i : Nat) : Out StructD := p.structAt i

/-- `unicode.IsLower(rune(b))` of a byte. -/
def lowerByte (b : UInt8) : Bool := decide ((97 ≤ b ∧ b ≤ 122) ∨ b = 181 ∨ (223 ≤ b ∧ b ≠ 247))

/-- FieldDescrByName (impl.go 126-139). -/
def StructD.fieldByName (s : StructD) (n : Str) : Out (Option FieldD) :=
  match n with
  | [] => .panic
  | b :: _ => if lowerByte b then .panic else .ok (s.fields.find? fun f => f.name = n)

/-- FieldDescrByIndex (impl.go 143-145). -/
def StructD.fieldAt (s : StructD) (i : Nat) : Out FieldD := index s.fields i

/-- EnumGroup (impl.go 173-180): the variable of the group. -/
def FieldD.enumGroup (f : FieldD) : Out Ref :=
  match f.eg with
  | some r => .ok r
  | none => .panic

/-- ItemType (impl.go 188-195): the name of the struct in the description it refers to. -/
def FieldD.itemType (f : FieldD) : Out Str :=
  if f.type = .listStructs then
    match f.sd with
    | some r => .ok r.name
    | none => .panic
  else .panic

/-- IsMap, MapKeyType and MapValueType (impl.go 198-215). -/
def FieldD.isMap (f : FieldD) : Bool := f.type = .map
def FieldD.mapKey (f : FieldD) : Out FT := if f.type = .map then .ok f.key else .panic
def FieldD.mapValue (f : FieldD) : Out FT := if f.type = .map then .ok f.value else .panic

/-- EnumGroupImpl.ByName and ByValue (enums.go 42-62), Get (36-38). -/
def Group.byName (g : Group) (n : Str) : Option EnumD := g.descrs.find? fun d => d.name = n
def Group.byValue (g : Group) (v : Nat) : Option EnumD := g.descrs.find? fun d => d.number = v
def Group.at (g : Group) (i : Nat) : Out EnumD := index g.descrs i

end Claw.Descr
