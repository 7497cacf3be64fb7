import Verif.Model.GenImports

/-!
# What Go asks of imports
-/

namespace Claw.GenImports

/-- The keywords of Go. -/
def keywords : List Str :=
  lits ["break", "case", "chan", "const", "continue", "default", "defer", "else", "fallthrough", "for", "func", "go", "goto", "if",
    "import", "interface", "map", "package", "range", "return", "select", "struct", "switch", "type", "var"]

/-- Names that an import cannot bind (`init` is only for functions, a package `main` cannot be imported). -/
def unbindable : List Str := lit "init" :: lit "main" :: keywords

/-- The Go compiler accepts the imports of a file and the names of packages in it: no two imports bind one name and none binds
a name that is not allowed, each name of a package
is not taken by a variable and is bound to the package that is meant, each import is used, and no import takes a predeclared name that
the file uses. -/
structure GoFile.Ok (f : GoFile) : Prop where
  once : (f.imports.map (·.1)).Nodup
  legal : ∀ x ∈ f.imports, x.1 ∉ unbindable
  bound : ∀ u ∈ f.uses, u.name ∉ u.locals ∧ (u.name, u.path) ∈ f.imports
  used : ∀ x ∈ f.imports, ∃ u ∈ f.uses, u.name = x.1 ∧ u.name ∉ u.locals
  plain : ∀ n ∈ f.plain, n ∉ f.imports.map (·.1)

/-- The predeclared names of Go that generated code may use: no package of the fixed text has such a name. -/
def predeclared : List Str :=
  lits ["any", "bool", "byte", "error", "float32", "float64", "int", "int8", "int16", "int32", "int64", "rune", "string", "uint", "uint8",
    "uint16", "uint32", "uint64", "true", "false", "nil", "append", "cap", "clear", "copy", "delete", "len", "make", "max", "min", "new",
    "panic", "print", "println", "recover"]

/-- The three files of a package, and the package clause (a package `main` needs a function `main`, which is not generated). -/
structure Input.Compiles (i : Input) : Prop where
  clause : i.pkg ∉ lit "main" :: keywords
  main : (mainFile i).Ok
  iter : (iterFile i).Ok
  ingest : (ingestFile i).Ok

/-- What the front end gives: the names of imports are different, the packages of fields are imported, only what is a Claw package is
imported, the predeclared names are such, and a package with such fields has fields. -/
structure Input.Sane (i : Input) : Prop where
  names : (i.imports.map (·.1)).Nodup
  fields : ∀ f ∈ i.fields, (f.name, f.path) ∈ i.imports
  claw : ∀ x ∈ i.imports, x.2 ∉ (mainFixed ++ iterFixed true ++ ingestFixed).map (·.2)
  builtins : ∀ n, ∀ b ∈ i.builtins n, b ∈ predeclared

/-- A name by which a package can be imported: it is the name of the package, it is allowed, and it is neither that of a package of the
fixed text nor a predeclared name that is used. -/
def Importable (i : Input) (fixed : List (Str × Str)) (plain : List Str) (x : Str × Str) : Prop :=
  x.1 = i.goName x.2 ∧ x.1 ∉ unbindable ∧ x.1 ∉ fixed.map (·.1) ∧ x.1 ∉ plain

/-- The variables that generated code has where it names the package of a field of a kind. -/
def variables : Kind → List Str
  | .enum => lits ["x", "ctx", "ts", "opts", "tok", "ok", "yield", "v"]
  | .struct => lits ["x", "s", "ctx", "raw", "ts", "opts", "tok", "ok"]
  | .enums => lits ["x", "ctx", "raw", "l", "ts", "opts", "tok", "ok", "listTok", "enumsList", "itemTok", "yield", "list", "v"]
  | .structs => lits ["x", "ctx", "index", "s", "values", "list", "raw", "items", "r", "l", "i", "ts", "opts", "tok", "ok", "listTok",
      "peekTok"]

end Claw.GenImports
