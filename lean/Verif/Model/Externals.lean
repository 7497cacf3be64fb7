import Verif.Model.Idl
import Verif.Model.ImportBlock

/-!
# Types of imported packages

How a schema file gets at the files of the packages it imports: `/repo/clawc/internal/imports/imports.go` 251-278 and the end of
the resolution in `/repo/clawc/internal/idl/idl.go` 1124-1162.
-/

namespace Claw.Externals

open Claw.Idl (Out Ident splitDot)

/-- What populateIDLExternals (imports.go 262-278) attaches to the external names of a file and Struct.Render then reads
(idl.go 1126-1141). `files` are the files that were read, by their path, with the identifiers they declare; `external` the names
that the parser noted. A name that was not noted has a nil file, as has one whose package was not read: Render takes
the identifiers of nil, which is a panic. It also panics if the package is not imported. -/
def externs (imports : List Import.Entry) (files : Str → Option (List (Str × Ident))) (external : List Str) (ty : Str) :
    Out (List (Str × Ident)) :=
  match Import.byName imports ((splitDot ty).headD []) with
  | none => .panic
  | some e =>
    if ty ∈ external then
      match files e.path with
      | some ids => .ok ids
      | none => .panic
    else .panic

end Claw.Externals
