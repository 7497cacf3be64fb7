import Verif.Model.VendorDir

/-!
# `clawc`: from a schema to Go code

`/repo/clawc/clawc.go`: handleCompile 137-238, compileDependencyWithOptions 246-276, compileLocalDependency 279-324;
`/repo/clawc/internal/imports/imports.go`: Config.Read 167-249, readConfig 281-312, VendoredConfig 494-737, extractModulePathFromDir
764-786; `/repo/clawc/internal/writer/golang/golang.go` 32-127: where the code is written to.

Simplifications.
* A schema is known by what it imports: `schema` is `none` for a file that is refused. What is generated for it is not told, and
  generating does not fail.
* There are no files local.replace and global.replace.
* All that is read and written is inside of one git repository or there is none. The file system is that of `Model/VendorDir`; a package
  is written if its directory is there.
* Of a run that fails it is not told what it had written by then.
-/

namespace Claw.Compile

open Claw.Idl (Out Uni)
open Claw.Mod (Module splitBy)
open Claw.VendorDir
open Claw.Vendor (World Graph hasSuffix inRepo absRel readRel localRel isLocalDependency applyReplace resolveVersion read readVendored readTop
  vendorDeps compileOrder splitStr joinStr)

/-- What clawc finds. -/
structure Box where
  fs : FS
  /-- The directory it was started in. -/
  cwd : Dir
  /-- Origin and root of the git repository. -/
  git : Option (Str × Dir)
  /-- The directory of claw.work, its `repo` and its `vendorDir`. -/
  workDir : Dir
  repo : Str
  vendorName : Str
  /-- What a schema imports. -/
  schema : Bytes → Option (List Str)
  /-- The schema of a package at a version. -/
  remote : Str → Str → Option Bytes
  /-- Does `go get` of the package succeed? -/
  goGet : Str → Bool
  /-- The order in which Go takes the nodes of the graph. -/
  shuffle : Graph → List Str

/-- NewVendorManager (vendor.go 76). -/
def Box.vendorDir (b : Box) : Dir := down b.workDir (splitBy 47 b.vendorName)

/-- The path of a directory or file. -/
def pathOf (d : Dir) : Str := lit "/" ++ joinStr (lit "/") d.reverse

/-- What a path leads to. -/
def Box.locate (b : Box) (p : Str) : Dir := down (if Str.hasPrefix (lit "/") p then [] else b.cwd) (splitBy 47 p)

def fileAt (fs : FS) (d : Dir) (n : Str) : Option Bytes :=
  match get fs d n with
  | some (.file t) => some t
  | _ => none

/-- findClawFileInDir (clawc.go 334-355) or FindClawFile (localreplace.go 167-189), and the imports of the file. -/
def schemaIn (schema : Bytes → Option (List Str)) (fs : FS) (d : Dir) : Option (List Str) :=
  match findClaw fs d with
  | .ok n => (fileAt fs d n).bind schema
  | _ => none

/-- getLocalClawFile (vendor.go 356-391). -/
def Box.claw (b : Box) (p : Str) : Option (List Str) :=
  if hasSuffix (lit ".claw") p then
    match b.locate p with
    | n :: d => (fileAt b.fs d n).bind b.schema
    | [] => none
  else schemaIn b.schema b.fs (b.locate p)

/-- What the collection of dependencies sees. -/
def Box.world (b : Box) : World where
  claw := b.claw
  mod p := fileAt b.fs (b.locate p) (lit "claw.mod")
  git := b.git.map fun g => (inRepo g.1, fun p => some (pathOf (down g.2 (splitBy 47 (absRel g.1 p)))))
  remote p v := (b.remote p v).bind b.schema

/-- The packages of a graph as createVendorStructure (vendor.go 504-534) has them. A package that is vendored was fetched (vendor.go
257-260), and its claw.mod was not (vendor.go 425-428). -/
def Box.pkgs (b : Box) (root : Module) (g : Graph) : List Pkg :=
  g.map fun x => ⟨x.1, (b.remote (applyReplace x.1 root []) (resolveVersion x.1 root)).getD [], none, x.2.shouldVendor⟩

/-! ## The module of a file -/

/-- The loop at imports.go 775-781. -/
def fromDomain : List Str → Option Str
  | x :: y :: z :: rest => if List.contains x 46 then some (joinStr (lit "/") (x :: y :: z :: rest)) else fromDomain (y :: z :: rest)
  | _ => none

/-- extractModulePathFromDir (imports.go 764-786). -/
def extractModulePath (d : Dir) : Str :=
  let dir := pathOf d
  if Str.contains dir (lit "/vendor/") then (splitStr (lit "/vendor/") dir).getD 1 []
  else match fromDomain (splitBy 47 dir) with
    | some p => p
    | none => d.headD (lit "/")

/-- readConfig (imports.go 281-312): the path of the module. -/
def modulePath (u : Uni) (fs : FS) (d : Dir) : Out Str :=
  match get fs d (lit "claw.mod") with
  | some .dir => .err
  | some (.file t) => do
    let m ← Mod.parseModule u t
    .ok m.path
  | none => .ok (extractModulePath d)

/-! ## Reading and writing -/

/-- WriteFiles (golang.go 32-72): the packages with the directories they are written to. -/
def write (fs : FS) (dirOf : Str → Dir) (ps : List Str) : Out (List (Dir × Str)) :=
  if ps.all fun p => isDir fs (dirOf p) then .ok (ps.map fun p => (dirOf p, p)) else .err

/-- VendoredConfig.Abs (imports.go 524-533). -/
def Box.dirOf (b : Box) (p : Str) : Dir :=
  match b.git with
  | some (o, r) => if inRepo o p then down r (splitBy 47 (absRel o p)) else pkgDir b.vendorDir p
  | none => pkgDir b.vendorDir p

/-- What readVendored (imports.go 648-707) reads of a package. -/
def Box.vendoredFile (b : Box) (fs : FS) (p : Str) : Option (List Str) :=
  match b.git with
  | some (o, r) => if inRepo o p then schemaIn b.schema fs (down r (splitBy 47 (readRel o p))) else schemaIn b.schema fs (pkgDir b.vendorDir p)
  | none => schemaIn b.schema fs (pkgDir b.vendorDir p)

/-- VendoredConfig.Read (imports.go 556-646) of a schema in directory `d` and writing what is read (clawc.go 217-237 and 249-273). No
package is got with `go get` (imports.go 537-546). -/
def Box.readAndWrite (b : Box) (u : Uni) (depth : Nat) (fs : FS) (d : Dir) (deps : List Str) : Out (List (Dir × Str)) := do
  let m ← modulePath u fs d
  let got ← readTop (readVendored (b.vendoredFile fs) depth) m deps
  write fs b.dirOf got

/-- The case of an external package (clawc.go 199-211). -/
def Box.compileVendored (b : Box) (u : Uni) (depth : Nat) (fs : FS) (p : Str) : Out (List (Dir × Str)) := do
  let deps ← Out.ofOption (schemaIn b.schema fs (pkgDir b.vendorDir p))
  b.readAndWrite u depth fs (pkgDir b.vendorDir p) deps

/-- What Config.read (imports.go 337-424) reads of a package: of one that is not in the repository the latest version. -/
def Box.plainFile (b : Box) (fs : FS) (o : Str) (r : Dir) (p : Str) : Option (List Str) :=
  if inRepo o p then schemaIn b.schema fs (down r (splitBy 47 (readRel o p))) else (b.remote p []).bind b.schema

/-- compileLocalDependency (clawc.go 279-324). Without git nothing can be imported (imports.go 349-351), and without imports InRootRepo
panics (imports.go 120-122). Packages that are not in the repository are got with `go get` (golang.go 76-103). -/
def Box.compileLocal (b : Box) (u : Uni) (depth : Nat) (fs : FS) (p : Str) : Out (List (Dir × Str)) := do
  let rel ← Out.ofOption (localRel b.repo p)
  let d := down b.workDir (splitBy 47 rel)
  let deps ← Out.ofOption (schemaIn b.schema fs d)
  let m ← modulePath u fs d
  match b.git with
  | none => if deps.isEmpty then .panic else .err
  | some (o, r) => do
    let got ← readTop (read (b.plainFile fs o r) depth) m deps
    Out.guard (got.all fun q => inRepo o q || b.goGet q)
    write fs (fun q => down r (splitBy 47 (absRel o q))) (got.filter (inRepo o))

/-- One package of the loop (clawc.go 183-212). -/
def Box.compileOne (b : Box) (u : Uni) (depth : Nat) (fs : FS) (top p : Str) : Out (List (Dir × Str)) :=
  if Str.contains p top then .ok []
  else if isLocalDependency b.repo p then b.compileLocal u depth fs p
  else b.compileVendored u depth fs p

def Box.compileAll (b : Box) (u : Uni) (depth : Nat) (fs : FS) (top : Str) : List Str → Out (List (Dir × Str))
  | [] => .ok []
  | p :: ps => do
    let x ← b.compileOne u depth fs top p
    let y ← b.compileAll u depth fs top ps
    .ok (x ++ y)

/-- handleCompile (clawc.go 169-178) of the schema `name` in directory `dir`, up to vendoring. -/
def Box.vendored (b : Box) (u : Uni) (depth : Nat) (dir : Dir) (name : Str) : Out (Graph × FS) := do
  let text ← Out.ofOption (fileAt b.fs dir (lit "claw.mod"))
  let root ← Mod.parseModule u text
  let g ← vendorDeps b.world u depth b.repo root [] (pathOf (name :: dir))
  let fs ← create b.vendorDir b.fs (b.pkgs root g)
  .ok (g, fs)

/-- handleCompile (clawc.go 137-238): what is written, and where. -/
def Box.compile (b : Box) (u : Uni) (depth : Nat) (dir : Dir) (name : Str) : Out (List (Dir × Str)) := do
  let (g, fs) ← b.vendored u depth dir name
  let top := pathOf (name :: dir)
  let order ← compileOrder g.edges (b.shuffle g) depth
  let x ← b.compileAll u depth fs top order
  let deps ← Out.ofOption ((fileAt fs dir name).bind b.schema)
  let y ← b.readAndWrite u depth fs dir deps
  .ok (x ++ y)

end Claw.Compile
