import Verif.Model.Compile

/-!
# `clawc get`

`/repo/clawc/clawc.go`: handleGet 50-101; `/repo/clawc/internal/vendor/vendor.go`: VendorSingleDependency 708-753,
processSingleDependency 756-837. The simplifications are those of `Model/Compile`.
-/

namespace Claw.Compile

open Claw.Idl (Out Uni)
open Claw.Mod (Module splitBy)
open Claw.VendorDir
open Claw.Vendor (Graph hasSuffix inRepo absRel applyReplace resolveVersion isLocalPath process validateACLs parseSpec)

/-- The file that schemaIn reads. -/
def textIn (fs : FS) (d : Dir) : Option Bytes :=
  match findClaw fs d with
  | .ok n => fileAt fs d n
  | _ => none

/-- getLocalClawFile (vendor.go 353-391): the content. -/
def Box.text (b : Box) (p : Str) : Option Bytes :=
  if hasSuffix (lit ".claw") p then
    match b.locate p with
    | n :: d => fileAt b.fs d n
    | [] => none
  else textIn b.fs (b.locate p)

/-- The content that processSingleDependency (vendor.go 786-797) gets for a package: `p` is its path after replacement. -/
def Box.content (b : Box) (p version : Str) : Option Bytes :=
  if isLocalPath p then b.text p
  else match b.git with
    | some (o, r) => if inRepo o p then b.text (pathOf (down r (splitBy 47 (absRel o p)))) else b.remote p version
    | none => b.remote p version

/-- The module of the directory clawc was started in (vendor.go 710-718): a file that is not there or that is refused is made up for. -/
def Box.getRoot (b : Box) (u : Uni) : Module :=
  match (fileAt b.fs b.cwd (lit "claw.mod")).map (Mod.parseModule u) with
  | some (.ok m) => m
  | _ => ⟨lit "local", [], [], []⟩

/-- The packages of the graph as VendorSingleDependency (vendor.go 746-750) has them: all are vendored. -/
def Box.getPkgs (b : Box) (root : Module) (pkg version : Str) (g : Graph) : List Pkg :=
  g.map fun x => ⟨x.1, (b.content (applyReplace x.1 root []) (if x.1 = pkg then version else resolveVersion x.1 root)).getD [],
    x.2.mod.map Mod.moduleText, true⟩

/-- VendorSingleDependency (vendor.go 708-753). -/
def Box.vendorSingle (b : Box) (u : Uni) (depth : Nat) (pkg version : Str) : Out FS := do
  let root := b.getRoot u
  let g ← process b.world u true root [] depth [] pkg version []
  Out.guard (validateACLs root g)
  vendorAll b.vendorDir b.fs (b.getPkgs root pkg version g)

/-- The version to get (clawc.go 63-71). `latest` is GetLatestVersion (git.go 187-194). -/
def toGet (latest : Str → Out Str) (pkg v : Str) : Out Str := if v = lit "latest" ∨ v = [] then latest pkg else .ok v

/-- handleGet (clawc.go 50-101): the file system after vendoring, and what is written where. -/
def Box.get (b : Box) (latest : Str → Out Str) (u : Uni) (depth : Nat) (spec : Str) : Out (FS × List (Dir × Str)) := do
  let (pkg, v) ← Out.ofOption (parseSpec spec)
  let version ← toGet latest pkg v
  let fs ← b.vendorSingle u depth pkg version
  let ws ← b.compileVendored u depth fs pkg
  .ok (fs, ws)

end Claw.Compile
