import Verif.Model.Vendor

/-!
# The vendor directory

`/repo/clawc/internal/vendor/vendor.go`: createVendorStructure 504-534, vendorPackage 536-559, getClawFileName 561-565, writeClawFile
567-570, VendorSingleDependency 745-750, IsVendored 843-864, GetVendoredVersion 868-891, GetVendorPath 894-899;
`/repo/clawc/clawc.go`: findClawFileInDir 334-355.

Simplifications.
* The file system has directories and files, no links, and all may be read and written. Names of any length are allowed.
* The file claw.mod is given as the text that serializeModule makes for it (`Model/ModFile`).
-/

namespace Claw.VendorDir

open Claw.Idl (Out)
open Claw.Mod (splitBy)
open Claw.Vendor (hasSuffix)

/-- A directory, as the names on the way to it from the root of the file system, the last one first. -/
abbrev Dir := List Str

inductive Entry where
  | dir
  | file (text : Bytes)
  deriving DecidableEq, Repr

/-- The entries of the directories. -/
abbrev FS := List ((Dir × Str) × Entry)

def get (fs : FS) (d : Dir) (n : Str) : Option Entry := (fs.find? fun e => e.1 = (d, n)).map (·.2)

def put (fs : FS) (d : Dir) (n : Str) (x : Entry) : FS := ((d, n), x) :: fs.filter fun e => e.1 ≠ (d, n)

/-- It is there, and it is a directory. -/
def isDir (fs : FS) : Dir → Bool
  | [] => true
  | n :: d => get fs d n = some .dir

/-- os.MkdirAll. -/
def mkdirAll (fs : FS) : Dir → Out FS
  | [] => .ok fs
  | n :: d => do
    let fs ← mkdirAll fs d
    match get fs d n with
    | none => .ok (put fs d n .dir)
    | some .dir => .ok fs
    | some (.file _) => .err

/-- os.WriteFile, in a directory that is there. -/
def writeFile (fs : FS) (d : Dir) (n : Str) (text : Bytes) : Out FS :=
  match get fs d n with
  | some .dir => .err
  | _ => .ok (put fs d n (.file text))

/-- os.ReadDir: the names. -/
def readDir (fs : FS) (d : Dir) : Out (List Str) :=
  if isDir fs d then .ok ((fs.filter fun e => e.1.1 = d).map (·.1.2)) else .err

/-- The elements of a path after a clean directory, as filepath.Join cleans them. -/
def down (d : Dir) : List Str → Dir
  | [] => d
  | x :: rest => if x = [] ∨ x = lit "." then down d rest else if x = lit ".." then down d.tail rest else down (x :: d) rest

/-- GetVendorPath (vendor.go 894-899), and the directory of vendorPackage (538). -/
def pkgDir (vendorDir : Dir) (pkg : Str) : Dir := down vendorDir (splitBy 47 pkg)

/-- getClawFileName (vendor.go 561-565). -/
def clawName (pkg : Str) : Str := (splitBy 47 pkg).getLastD [] ++ lit ".claw"

/-- What is used of a DependencyNode (vendor.go 42-51), with its key. -/
structure Pkg where
  path : Str
  content : Bytes
  mod : Option Bytes
  shouldVendor : Bool
  deriving DecidableEq

/-- vendorPackage (vendor.go 536-559). -/
def vendorPackage (vendorDir : Dir) (fs : FS) (p : Pkg) : Out FS := do
  let d := pkgDir vendorDir p.path
  let fs ← mkdirAll fs d
  let fs ← writeFile fs d (clawName p.path) p.content
  match p.mod with
  | none => .ok fs
  | some m => writeFile fs d (lit "claw.mod") m

/-- The loops at vendor.go 524-530 and 746-750; Go takes the nodes of the graph in any order. -/
def vendorAll (vendorDir : Dir) (fs : FS) : List Pkg → Out FS
  | [] => .ok fs
  | p :: ps => do
    let fs ← vendorPackage vendorDir fs p
    vendorAll vendorDir fs ps

/-- createVendorStructure (vendor.go 504-534). -/
def create (vendorDir : Dir) (fs : FS) (nodes : List Pkg) : Out FS :=
  if nodes.any (·.shouldVendor) then do
    let fs ← mkdirAll fs vendorDir
    vendorAll vendorDir fs (nodes.filter (·.shouldVendor))
  else .ok fs

/-- findClawFileInDir (clawc.go 334-355): the name. -/
def findClaw (fs : FS) (d : Dir) : Out Str := do
  let names ← readDir fs d
  match names.filter (hasSuffix (lit ".claw")) with
  | [n] => .ok n
  | _ => .err

/-- IsVendored (vendor.go 843-864). -/
def isVendored (vendorDir : Dir) (fs : FS) (pkg : Str) : Bool :=
  match readDir fs (pkgDir vendorDir pkg) with
  | .ok names => names.any (hasSuffix (lit ".claw"))
  | _ => false

/-- GetVendoredVersion (vendor.go 868-891): after reading claw.mod, or without it, the empty version. -/
def vendoredVersion (vendorDir : Dir) (fs : FS) (pkg : Str) : Out Str :=
  if isVendored vendorDir fs pkg then .ok [] else .err

end Claw.VendorDir
