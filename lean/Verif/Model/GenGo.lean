import Verif.Model.Idl

/-!
# The Go package that is generated for a schema

`/repo/clawc/internal/render/golang/templates/*.tmpl` and `/repo/clawc/internal/idl/struct.tmpl`: which names the
generated files declare, and which package variables the initialisers of the package variables refer to.

Simplifications.
* Of a declaration only its name and, for a method, the type of its receiver is kept; of an initialiser only the names
  of the variables of the package that it refers to.
* The bodies of functions and methods are left out, and so are the blank identifier, the `init` functions and the
  imports.
* Pointer receivers (clawingest.tmpl 29, 50) are not told from value receivers: Go puts both in one set of names.
-/

namespace Claw.GenGo

open Claw.Idl

/-- A name that is declared: that of a method with the type of its receiver, or one at package level. -/
structure Decl where
  recv : Option Str
  name : Str
  deriving DecidableEq, Repr

/-- What is kept of the generated files: the declarations, and for each package variable that has references in its
initialiser the names it refers to. -/
structure GoPkg where
  decls : List Decl
  vars : List (Str × List Str)
  deriving DecidableEq, Repr

/-- What the templates read of a file: the enums with the names of their enumerators, the structs with their fields
after Struct.Render has settled the types, and the option IsSet. -/
structure Input where
  enums : List (Str × List Str)
  structs : List (Str × List Field)
  isSet : Bool
  deriving DecidableEq, Repr

/-- A field whose type is of another package: IsExternal (idl.go 1126-1138), which is set exactly if the type was left
open by the parser and its name has a dot. -/
def isExternal (f : Field) : Bool := decide ((46 : UInt8) ∈ f.identName)

/-- The names of the methods of a field without those for IsSet, as what stands before and after the name of the field
(struct.tmpl 70-879, the branches on TypeAsString; for maps 558-801). -/
def fieldForms (f : Field) : List (String × String) :=
  match f.type with
  | .unknown => []
  | .bytes => [("", ""), ("SafeGet", ""), ("Set", "")]
  | .listStructs => [("", "List"), ("", "Len"), ("", "Get"), ("", "Append"), ("", "AppendRaw")]
  | .map =>
    (match f.map with
      | some (.flat _ v ident) =>
        if ident ≠ [] then [("", "Map"), ("", "Get"), ("", "Set")]
        else if v = .any then [("", "Map"), ("", "Get"), ("", "GetRaw"), ("", "Set")]
        else if v = .listAny then [("", "Map"), ("", "Get"), ("", "GetRaw"), ("", "ListLen"), ("", "Set")]
        else [("", "Map"), ("", "Get"), ("", "Set")]
      | _ => [("", "Map"), ("", "Get"), ("", "Set")]) ++
    [("", "Delete"), ("", "Has"), ("", "Len")]
  | .any => [("", ""), ("", "Raw"), ("Set", ""), ("Set", "Raw")]
  | .listAny => [("", "Len"), ("", "Get"), ("", "GetRaw"), ("Set", ""), ("Set", "Raw")]
  | _ => [("", ""), ("Set", "")]

/-- The receiver of IsSet (struct.tmpl 84-88 and its like in every branch). In the branch of Int8 (103-107) it is written
`{{ .Name }}`, where the dot is the field. -/
def isSetRecv (sname : Str) (f : Field) : Str := if f.type = .int8 then f.name else sname

/-- All methods of a field. -/
def fieldMethods (isSet : Bool) (sname : Str) (f : Field) : List Decl :=
  ((fieldForms f).map fun p => ⟨some sname, lit p.1 ++ (f.name ++ lit p.2)⟩) ++
    if isSet && decide (f.type ≠ .unknown) then [⟨some (isSetRecv sname f), lit "IsSet" ++ f.name⟩] else []

/-- The methods every struct has (struct.tmpl 26, 45-66, 883-923, 1030; structs.tmpl 8; clawiter.tmpl 26;
clawingest.tmpl 29, 50). -/
def fixedMethods : List Str :=
  [lit "Release", lit "Marshal", lit "MarshalSafe", lit "MarshalWriter", lit "Unmarshal", lit "UnmarshalReader",
   lit "ClawStruct", lit "XXXGetStruct", lit "XXXTypeHash", lit "SetRecording", lit "Recording", lit "DrainRecordedOps",
   lit "RecordedOpsLen", lit "ToRaw", lit "XXXDescr", lit "Walk", lit "Ingest", lit "XXXIngestFrom"]

/-- The methods of a struct. -/
def structMethods (isSet : Bool) (s : Str × List Field) : List Decl :=
  fixedMethods.map (fun m => ⟨some s.1, m⟩) ++ s.2.flatMap (fieldMethods isSet s.1)

/-- What a struct declares at package level, as what stands before and after its name (struct.tmpl 8, 14, 36, 930, 937;
mappings.tmpl 9, 14; reflect.tmpl 54). -/
def structForms : List (String × String) :=
  [("", ""), ("New", ""), ("XXXNew", "From"), ("", "Raw"), ("New", "FromRaw"), ("XXXTypeHash", ""), ("XXXMapping", ""),
   ("XXXStructDescr", "")]

/-- What an enum declares at package level besides its enumerators (enums.tmpl 5, 38, 45; reflect.tmpl 22). -/
def enumForms : List (String × String) :=
  [("", ""), ("", "ByName"), ("", "ByValue"), ("XXXEnumGroup", "")]

/-- The methods of an enum (enums.tmpl 8, 15, 22). -/
def enumMethods : List Str := [lit "String", lit "XXXEnumGroup", lit "XXXEnumValueDescr"]

/-- The names that do not depend on the schema (claw.tmpl 37-40; reflect.tmpl 39, 88, 95, 121). -/
def fixedNames (hasEnums : Bool) : List Str :=
  [lit "SyntaxVersion", lit "_package", lit "_packagePath", lit "XXXStructDescrs", lit "XXXPackageDescr",
   lit "PackageDescr"] ++ if hasEnums then [lit "XXXEnumGroups"] else []

def withAffixes (n : Str) (p : String × String) : Str := lit p.1 ++ (n ++ lit p.2)

/-- All names at package level. -/
def packageNames (i : Input) : List Str :=
  fixedNames (!i.enums.isEmpty) ++
  (i.enums.flatMap fun e => enumForms.map (withAffixes e.1) ++ e.2) ++
  i.structs.flatMap fun s => structForms.map (withAffixes s.1)

/-- The variable that holds the mapping of a struct, and the one that holds its description. -/
def mappingVar (n : Str) : Str := lit "XXXMapping" ++ n
def descrVar (n : Str) : Str := lit "XXXStructDescr" ++ n
def groupVar (n : Str) : Str := lit "XXXEnumGroup" ++ n

/-- The variables of the package that the mapping of a field refers to (mappings.tmpl 37-56). A struct of another package
is not one of them. The value of a map is taken to be of this package: ValueIsExternal is never set. -/
def fieldMappingRefs (f : Field) : List Str :=
  match f.type with
  | .struct | .listStructs => if isExternal f then [] else [mappingVar f.identName]
  | .map =>
    match f.map with
    | some (.flat _ _ ident) => if ident ≠ [] then [mappingVar ident] else []
    | _ => []
  | _ => []

/-- The variables of the package that the description of a field refers to, besides the mapping of its own struct
(reflect.tmpl 60-84). -/
def fieldDescrRefs (f : Field) : List Str :=
  if isExternal f then []
  else if f.isEnum then [groupVar f.identName]
  else if f.identName ≠ [] then [descrVar f.identName]
  else []

/-- The package variables whose initialisers refer to others (mappings.tmpl 14-59, reflect.tmpl 39-118). -/
def packageVars (i : Input) : List (Str × List Str) :=
  (i.structs.map fun s => (mappingVar s.1, s.2.flatMap fieldMappingRefs)) ++
  (i.structs.map fun s => (descrVar s.1, mappingVar s.1 :: s.2.flatMap fieldDescrRefs)) ++
  [(lit "XXXStructDescrs", i.structs.map fun s => descrVar s.1),
   (lit "XXXPackageDescr",
     (if i.enums.isEmpty then [] else [lit "XXXEnumGroups"]) ++ i.structs.map fun s => descrVar s.1)] ++
  if i.enums.isEmpty then [] else [(lit "XXXEnumGroups", i.enums.map fun e => groupVar e.1)]

/-- The generated package (claw.tmpl, which includes the others, and the two additional files). -/
def generate (i : Input) : GoPkg :=
  ⟨(packageNames i).map (fun n => ⟨none, n⟩) ++
     (i.enums.flatMap fun e => enumMethods.map fun m => ⟨some e.1, m⟩) ++
     i.structs.flatMap (structMethods i.isSet),
   packageVars i⟩

/-- `for` over a list, stopping at the first error. -/
def mapOut {α β : Type} (f : α → Out β) : List α → Out (List β)
  | [] => .ok []
  | a :: l => do
    let b ← f a
    let bs ← mapOut f l
    return b :: bs

/-- What the templates are given for a file: Struct.Render (idl.go 1084-1179) settles the types of the fields of each
struct, and the enumerators are put in order (idl.go 518-533). An enum whose enumerators cannot be put in order, or a
field whose type cannot be settled, ends it. The blocks are taken in the order of the file, where the code sorts them by
name (idl.go 109-144): only the order of the declarations differs. -/
def settle (externs : Str → Out (List (Str × Ident))) (isSet : Bool) (file : File) : Out Input := do
  let enums ← mapOut (fun e => do
    let vs ← orderByValues e.values
    return (e.name, vs.map (·.name))) file.enums
  let structs ← mapOut (fun s => do
    let fs ← mapOut (resolve file.ctx.idents externs) s.2
    return (s.1, fs)) file.structs
  return ⟨enums, structs, isSet⟩

/-- Renderer.Render and RenderAdditionalFiles (golang.go 42-97). -/
def render (externs : Str → Out (List (Str × Ident))) (isSet : Bool) (file : File) : Out GoPkg := do
  let i ← settle externs isSet file
  return generate i

end Claw.GenGo
