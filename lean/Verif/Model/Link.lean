import Verif.Model.Vendor

/-!
# Generated packages in one program

Model of `/repo/languages/go/reflect/runtime/runtime.go` (the registries of packages and of type hashes), of the `init` function that
the compiler writes into every package (`clawc/internal/render/golang/templates/reflect.tmpl` 126-139), and of what is hashed for a
struct type (`clawc/internal/idl/idl.go`, Struct.TypeHash).

Simplifications.
* SHAKE128 is a parameter `hash`.
* The `New` function of an entry is named by the Go package it is in and the name of the struct.
* The order in which Go runs the `init` functions is the order of the list.
* The log lines of the registries are left out.
-/

namespace Claw.Link

open Claw.Idl (Out)

/-- Struct.TypeHash (idl.go 1060-1065): what is hashed, the path of the package, a dot and the name of the struct. -/
def identity (path name : Str) : Str := path ++ lit "." ++ name

/-- A package as generated: where the Go package is, the path that is written into it (reflect.tmpl 97 and 133) and the names of its structs. -/
structure Pkg where
  goPath : Str
  path : Str
  structs : List Str
  deriving DecidableEq, Repr

/-- TypeEntry (runtime.go 31-38). -/
structure Entry where
  name : Str
  fullPath : Str
  newIn : Str
  deriving DecidableEq, Repr

/-- The two maps of the package (runtime.go 13 and 54). -/
structure Reg (H : Type) where
  pkgs : Dict Str Pkg
  types : Dict H Entry

variable {H : Type} [DecidableEq H]

/-- The maps of a program that starts. -/
def Reg.empty : Reg H := ⟨Dict.empty, Dict.empty⟩

/-- RegisterPackage (runtime.go 16-22). -/
def Reg.registerPackage (r : Reg H) (p : Pkg) : Out (Reg H) :=
  if (r.pkgs p.path).isSome then .panic else .ok { r with pkgs := r.pkgs.set p.path p }

/-- RegisterTypeHash (runtime.go 57-63). -/
def Reg.registerTypeHash (r : Reg H) (h : H) (e : Entry) : Reg H :=
  if (r.types h).isSome then r else { r with types := r.types.set h e }

/-- LookupTypeHash (runtime.go 66-72). -/
def Reg.lookup (r : Reg H) (h : H) : Option Entry := r.types h

/-- The entry that the `init` of a package registers for one of its structs (reflect.tmpl 131-137). -/
def Pkg.entry (p : Pkg) (name : Str) : Entry := ⟨name, p.path, p.goPath⟩

/-- The `init` of a generated package (reflect.tmpl 126-139). -/
def Reg.init (hash : Str → H) (r : Reg H) (p : Pkg) : Out (Reg H) := do
  let r ← r.registerPackage p
  .ok (p.structs.foldl (fun r n => r.registerTypeHash (hash (identity p.path n)) (p.entry n)) r)

/-- All `init` functions of a program. -/
def start (hash : Str → H) : List Pkg → Reg H → Out (Reg H)
  | [], r => .ok r
  | p :: ps, r => do
    let r ← r.init hash p
    start hash ps r

end Claw.Link
