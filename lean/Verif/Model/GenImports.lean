import Verif.Model.GenGo

/-!
# The imports of the Go files that are generated for a schema

`/repo/clawc/internal/render/golang/templates/{claw,clawiter,clawingest}.tmpl` and `/repo/clawc/internal/idl/struct.tmpl`: which packages
the three generated files import and where they name them; File.PkgImports, ExternalEnumImports and ExternalFieldImports
(`/repo/clawc/internal/idl/idl.go` 148-217).

Simplifications.
* Import paths stand for the packages they were generated from: Config.TransformImportPath is left out (C94).
* Values of maps that are structs of other packages are left out: no reference to them is generated that names a package (C123).
* Of cleanImports (render.go 157-182) only this is kept: the import of `field` goes from clawiter.go if no struct has a field. All other
  packages it knows are named in the fixed text of each file that imports them.
-/

namespace Claw.GenImports

/-- The kinds of fields whose type is of another package. -/
inductive Kind where
  | enum
  | struct
  | enums
  | structs
  deriving DecidableEq, Repr

/-- A field whose type is of another package (idl.go 1126-1168): the name before the dot, the path of the import of that name, and the
kind. -/
structure Ext where
  name : Str
  path : Str
  kind : Kind
  deriving DecidableEq, Repr

/-- What the templates read of a file, as far as imports go: its package, the imports by name (a map: the names are different), the
fields with types of other packages and whether there are fields at all. `goName` gives the name of the Go package that is generated
for a path. `builtins` are the predeclared names of Go that are used in a file for this schema (0: main, 1: clawiter.go, 2:
clawingest.go), besides those in its fixed text. -/
structure Input where
  pkg : Str
  imports : List (Str × Str)
  fields : List Ext
  hasFields : Bool
  goName : Str → Str
  builtins : Nat → List Str

/-- A place where a file names a package: the name, the path of the package that is meant, and the variables of the function that are in
scope there. -/
structure Use where
  name : Str
  path : Str
  locals : List Str
  deriving DecidableEq, Repr

/-- A Go file: its imports with the names they bind, the places where packages are named, and the predeclared names it uses. -/
structure GoFile where
  imports : List (Str × Str)
  uses : List Use
  plain : List Str

/-- The paths of a list of imports once each (`seen`, idl.go 151-168, 181-189, 204-212). -/
def dedup : List Str → List Str
  | [] => []
  | a :: l => if a ∈ l then dedup l else a :: dedup l

def claw (s : String) : Str × Str :=
  (lit s, lit "github.com/bearlytools/claw/clawc/languages/go/" ++ lit s)

/-- claw.tmpl 8-16. -/
def mainFixed : List (Str × Str) :=
  [(lit "context", lit "context"), (lit "io", lit "io"), (lit "bytes", lit "bytes"), (lit "fmt", lit "fmt"), claw "mapping",
   (lit "reflect", lit "github.com/bearlytools/claw/languages/go/reflect"),
   (lit "runtime", lit "github.com/bearlytools/claw/languages/go/reflect/runtime"), claw "segment", claw "field"]

/-- clawiter.tmpl 7-11, and cleanImports. -/
def iterFixed (hasFields : Bool) : List (Str × Str) :=
  [(lit "context", lit "context"), (lit "math", lit "math"), claw "clawiter"] ++ if hasFields then [claw "field"] else []

/-- clawingest.tmpl 7-12. -/
def ingestFixed : List (Str × Str) :=
  [(lit "context", lit "context"), (lit "fmt", lit "fmt"), claw "clawiter", claw "field", claw "segment"]

def lits (l : List String) : List Str := l.map lit

/-- The variables in scope where the main file names the package of a field: struct.tmpl 172 and 202; 350, 351 and 959; 404, 408 and
1051; 499, 503, 524, 544, 987, 1071 and 1074. -/
def mainLocals : Kind → List Str
  | .enum => lits ["x"]
  | .struct => lits ["x", "s", "ctx", "raw"]
  | .enums => lits ["x", "ctx", "raw", "l"]
  | .structs => lits ["x", "ctx", "index", "s", "values", "list", "raw", "items", "r", "l", "i"]

/-- clawiter.tmpl 81, 95; 201, 232. -/
def iterLocals : Kind → List Str
  | .enums => lits ["x", "ctx", "yield", "opts", "list", "v", "tok"]
  | _ => lits ["x", "ctx", "yield", "opts", "v", "tok"]

/-- clawingest.tmpl 89-101 and 122; 241, 243, 278, 280; 427. -/
def ingestLocals : Kind → List Str
  | .enum | .struct => lits ["x", "ctx", "ts", "opts", "tok", "ok"]
  | .enums => lits ["x", "ctx", "ts", "opts", "tok", "ok", "listTok", "enumsList", "itemTok"]
  | .structs => lits ["x", "ctx", "ts", "opts", "tok", "ok", "listTok", "peekTok"]

/-- A use of each package of the fixed text (claw.tmpl 24-34; clawiter.tmpl 19-20, 26-27 and the fields; clawingest.tmpl 19-22, 29). -/
def fixedUses (l : List (Str × Str)) : List Use := l.map fun x => ⟨x.1, x.2, []⟩

/-- The kinds of fields whose packages ExternalEnumImports gives (idl.go 181-185): those of enums. -/
def Kind.isEnum : Kind → Bool
  | .enum | .enums => true
  | _ => false

/-- The kinds of fields whose packages are named in clawiter.go (clawiter.tmpl 81, 95; 201, 232). -/
def Kind.inIter : Kind → Bool
  | .enum | .enums => true
  | _ => false

/-- The main file: PkgImports (idl.go 148-171); the imports are named in the description of the package (reflect.tmpl 98-103), the fields
in struct.tmpl, mappings.tmpl 39 and reflect.tmpl 65, 68. -/
def mainFile (i : Input) : GoFile :=
  ⟨mainFixed ++ (dedup (i.fields.map (·.path) ++ i.imports.map (·.2))).map fun p => (i.goName p, p),
   fixedUses mainFixed ++ (i.imports.map fun x => ⟨x.1, x.2, []⟩) ++ i.fields.map fun f => ⟨f.name, f.path, mainLocals f.kind⟩,
   lit "string" :: i.builtins 0⟩

/-- clawiter.go: ExternalEnumImports (idl.go 176-194). -/
def iterFile (i : Input) : GoFile :=
  let fs := i.fields.filter fun f => f.kind.isEnum
  ⟨iterFixed i.hasFields ++ (dedup (fs.map (·.path))).map fun p => (i.goName p, p),
   fixedUses (iterFixed i.hasFields) ++ (i.fields.filter fun f => f.kind.inIter).map fun f => ⟨f.name, f.path, iterLocals f.kind⟩,
   i.builtins 1⟩

/-- clawingest.go: ExternalFieldImports (idl.go 199-217). -/
def ingestFile (i : Input) : GoFile :=
  ⟨ingestFixed ++ (dedup (i.fields.map (·.path))).map fun p => (i.goName p, p),
   fixedUses ingestFixed ++ i.fields.map fun f => ⟨f.name, f.path, ingestLocals f.kind⟩,
   lit "error" :: lit "bool" :: lit "nil" :: i.builtins 2⟩

end Claw.GenImports
