import Verif.Model.ModFile

/-!
# Dependencies: the graph, the order of compilation, who may import, where packages are

Model of `/repo/clawc/internal/vendor/vendor.go` and of the recursive readers of
`/repo/clawc/internal/imports/imports.go`. The file system, git and the network are parameters. A call
that recurses without end overflows the stack of Go: functions here take the depth they may recurse to and
give `panic` beyond it; that a depth of the number of packages suffices is proved.
-/

namespace Claw.Vendor

open Claw.Mod (Module Replace Require Version splitBy intText)
open Claw.Idl (Out Uni)
open Claw.Text (trimSpace trimPrefix)

/-- `strings.HasSuffix(s, t)`. -/
def hasSuffix (t s : Str) : Bool := t.isSuffixOf s

/-- `strings.TrimSuffix(s, t)`. -/
def trimSuffix (t s : Str) : Str := if hasSuffix t s then s.take (s.length - t.length) else s

/-! ### Who may import -/

/-- One entry of the loop of checkACLPermission (vendor.go 481-497): does the entry let the module in? -/
def aclLets (current acl : Str) : Bool :=
  if acl = lit "*" ∨ acl = lit "public" then true
  else if acl = current then true
  else if hasSuffix (lit "/*") acl then Str.hasPrefix (trimSuffix (lit "/*") acl) current
  else false

/-- VendorManager.checkACLPermission (vendor.go 474-501): an error is `false`. -/
def checkACL (current : Str) (target : Module) : Bool :=
  if target.acls = [] then false else target.acls.any (aclLets current)

/-! ### The graph of dependencies -/

/-- What the file system, git and the network hold. `claw` and `remote` give the imports of the file in a
package directory, in any order (`file.Imports.Imports` is a map), or `none` if there is no file or it is refused. -/
structure World where
  /-- getLocalClawFile and parseClawFile (vendor.go 353-400). -/
  claw : Str → Option (List Str)
  /-- The claw.mod file in a directory. -/
  mod : Str → Option Bytes
  /-- `vm.git`: nil outside of a git repository, else InRepo and Abs. -/
  git : Option ((Str → Bool) × (Str → Option Str))
  /-- getClawFile of a package at a version. -/
  remote : Str → Str → Option (List Str)

/-- DependencyNode (vendor.go 43-51), without the contents. -/
structure Node where
  deps : List Str
  mod : Option Module
  shouldVendor : Bool

/-- isLocalPath (vendor.go 336-338). -/
def isLocalPath (p : Str) : Bool :=
  Str.hasPrefix (lit "/") p || Str.hasPrefix (lit "./") p || Str.hasPrefix (lit "../") p

/-- applyReplaceDirectives (vendor.go 313-334); the version is left as it is. -/
def applyReplace (pkg : Str) (root : Module) (loc : List Replace) : Str :=
  match loc.find? fun r => r.fromPath == pkg with
  | some r => r.toPath
  | none =>
    match root.replace.find? fun r => r.fromPath == pkg with
    | some r => r.toPath
    | none => pkg

/-- resolveVersion (vendor.go 439-450). -/
def resolveVersion (pkg : Str) (root : Module) : Str :=
  match root.required.find? fun r => r.path == pkg with
  | some r =>
    if r.version ≠ ⟨0, 0, 0⟩ then
      lit "v" ++ intText r.version.major ++ lit "." ++ intText r.version.minor ++ lit "." ++ intText r.version.patch
    else r.id
  | none => []

/-- getModuleFile (vendor.go 404-428), with the error of a file that cannot be parsed taken for no file, as
processClawFile (vendor.go 270-274) does. `mod` is the file at `filepath.Join(pkgPath, "claw.mod")`. -/
def moduleFile (w : World) (u : Uni) (p : Str) : Option Module :=
  if isLocalPath p then
    match w.mod p with
    | none => none
    | some text =>
      match Mod.parseModule u text with
      | .ok m => some m
      | _ => none
  else none

/-- The part of processClawFile (vendor.go 239-268) that gets the file: the imports and whether the package is vendored.
In `clawc get` (processSingleDependency, vendor.go 782-812) everything is vendored, and without git the call through the nil
interface panics. -/
def fetch (w : World) (single : Bool) (p version : Str) : Out (List Str × Bool) :=
  if isLocalPath p then
    match w.claw p with
    | some deps => .ok (deps, single)
    | none => .err
  else
    match w.git with
    | none =>
      if single then .panic
      else match w.remote p version with
        | some deps => .ok (deps, true)
        | none => .err
    | some (inRepo, abs) =>
      if inRepo p then
        match abs p with
        | none => .err
        | some l =>
          match w.claw l with
          | some deps => .ok (deps, single)
          | none => .err
      else match w.remote p version with
        | some deps => .ok (deps, true)
        | none => .err

/-- A dependency graph: Nodes and Edges (vendor.go 54-57) in the order of insertion. Edges[p] is the dependencies of Nodes[p]. -/
abbrev Graph := List (Str × Node)

/-- One call after the other, until one fails. -/
def walk {σ : Type} (f : Str → σ → Out σ) : List Str → σ → Out σ
  | [], s => .ok s
  | d :: ds, s => f d s >>= walk f ds

/-- processClawFile (vendor.go 222-304) and processSingleDependency (vendor.go 756-837). `visited` is the map of that name; it
is changed back when a call returns. -/
def process (w : World) (u : Uni) (single : Bool) (root : Module) (loc : List Replace) :
    Nat → List Str → Str → Str → Graph → Out Graph
  | 0, _, _, _, _ => .panic
  | n + 1, visited, p, version, g =>
    if p ∈ visited then .err
    else if p ∈ g.map (·.1) then .ok g
    else do
      let actual := applyReplace p root loc
      let (deps, vend) ← fetch w single actual version
      let node : Node := ⟨deps, moduleFile w u actual, vend⟩
      walk (fun d g => process w u single root loc n (p :: visited) d (resolveVersion d root) g) deps (g ++ [(p, node)])

/-- validateACLs (vendor.go 460-472). -/
def validateACLs (root : Module) (g : Graph) : Bool :=
  g.all fun x => match x.2.mod with
    | none => true
    | some m => checkACL root.path m

/-- VendorDependencies (vendor.go 109-144), up to the writing of files. `top` is the path of the .claw file. -/
def vendorDeps (w : World) (u : Uni) (depth : Nat) (workRepo : Str) (root : Module) (loc : List Replace) (top : Str) : Out Graph := do
  Out.guard (Mod.moduleInRepo root.path workRepo)
  let g ← process w u false root loc depth [] top [] []
  Out.guard (validateACLs root g)
  .ok g

/-! ### The order of compilation -/

/-- The maps and the list of GetCompilationOrder (vendor.go 663-665). -/
structure Marks where
  visited : List Str
  visiting : List Str
  result : List Str

/-- `visit` (vendor.go 668-688). -/
def visit (edges : Str → List Str) : Nat → Str → Marks → Out Marks
  | 0, _, _ => .panic
  | n + 1, p, s =>
    if p ∈ s.visiting then .err
    else if p ∈ s.visited then .ok s
    else do
      let s ← walk (visit edges n) (edges p) { s with visiting := p :: s.visiting }
      .ok ⟨p :: s.visited, s.visiting.filter fun x => x ≠ p, s.result ++ [p]⟩

/-- One round of the loop at the end of GetCompilationOrder: `result[i], result[opp] = result[opp], result[i]`. -/
def swapEnds (l : List Str) (i : Nat) : List Str :=
  (l.set i (l.getD (l.length - 1 - i) [])).set (l.length - 1 - i) (l.getD i [])

/-- The loop (vendor.go 698-701): `i` from `len(result)/2 - 1` down to 0. -/
def flip (l : List Str) : Nat → List Str
  | 0 => l
  | i + 1 => flip (swapEnds l i) i

/-- GetCompilationOrder (vendor.go 661-704), with the packages of the graph in any order. -/
def compileOrder (edges : Str → List Str) (nodes : List Str) (depth : Nat) : Out (List Str) := do
  let s ← walk (visit edges depth) nodes ⟨[], [], []⟩
  .ok (flip s.result (s.result.length / 2))

/-- `graph.Edges` of a graph. -/
def Graph.edges (g : Graph) (p : Str) : List Str :=
  match g.find? fun x => x.1 == p with
  | some x => x.2.deps
  | none => []

/-! ### Reading the imports -/

/-- Config.read with readLocal and readRemote (imports.go 337-424): `flow` is the list of packages in the context, `file` what the
file of a package imports, `none` if it cannot be read. The result is the keys of `c.Imports`. -/
def read (file : Str → Option (List Str)) : Nat → List Str → Str → List Str → Out (List Str)
  | 0, _, _, _ => .panic
  | n + 1, flow, p, got =>
    if p ∈ flow then .err
    else match file p with
      | none => .err
      | some deps => walk (read file n (flow ++ [p])) deps (got ++ [p])

/-- VendoredConfig.readVendored and its readLocal (imports.go 648-737). The calls for the second and later imports have the package
in the flow more than once, which makes no difference. -/
def readVendored (file : Str → Option (List Str)) : Nat → List Str → Str → List Str → Out (List Str)
  | 0, _, _, _ => .panic
  | n + 1, flow, p, got =>
    if p ∈ got then .ok got
    else if p ∈ flow then .err
    else match file p with
      | none => .err
      | some deps => walk (readVendored file n (flow ++ [p])) deps (got ++ [p])

/-- Config.Read (imports.go 167-249) and, with the other reader, VendoredConfig.Read (imports.go 556-646), without replacements,
for a file whose module is `top`: the keys of `Imports`. The packages it imports are read with `top` in the flow; it is added to the
map at the end. The check at imports.go 206 for a package already there asks for a path that is still empty and is not met. -/
def readTop (reader : List Str → Str → List Str → Out (List Str)) (top : Str) (deps : List Str) : Out (List Str) := do
  let got ← walk (reader [top]) deps []
  .ok (got ++ [top])

/-! ### Where packages are -/

/-- `strings.Split(s, sep)` for a separator that is not empty. -/
def splitStr (sep : Str) (s : Str) : List Str :=
  match h : Str.index sep s with
  | none => [s]
  | some i => if h' : sep = [] then [s] else s.take i :: splitStr sep (s.drop (i + sep.length))
termination_by s.length
decreasing_by
  cases s with
  | nil =>
    cases sep with
    | nil => exact absurd rfl h'
    | cons a b => simp [Str.index] at h
  | cons c s =>
    cases sep with
    | nil => exact absurd rfl h'
    | cons a b => simp only [List.length_drop, List.length_cons]; omega

/-- `strings.Join(l, sep)`. -/
def joinStr (sep : Str) : List Str → Str
  | [] => []
  | [a] => a
  | a :: l => a ++ sep ++ joinStr sep l

/-- Git.InRepo (vcs.go 176-179), for a path that is clean. -/
def inRepo (origin pkg : Str) : Bool := Str.hasPrefix origin pkg

/-- The directory of a package below the root of the repository, by Git.Abs (vcs.go 183-194). -/
def absRel (origin pkg : Str) : Str := trimPrefix (lit "/") (joinStr (lit "/") ((splitStr origin pkg).drop 1))

/-- The same by Config.read (imports.go 355-356) and readVendored (imports.go 665-666). -/
def readRel (origin pkg : Str) : Str := trimPrefix (lit "/") (joinStr [] ((splitStr origin pkg).drop 1))

/-- The same, below the directory of claw.work, by compileLocalDependency (clawc.go 283-287): `none` is an error. -/
def localRel (repo pkg : Str) : Option Str :=
  if Str.hasPrefix repo pkg then some (trimPrefix (repo ++ lit "/") pkg) else none

/-- isLocalDependency (clawc.go 325-331). -/
def isLocalDependency (repo pkg : Str) : Bool := Str.hasPrefix repo pkg

/-- Config.TransformImportPath (imports.go 135-147). `join` is path.Join of three parts that are clean and not empty. -/
def transformImportPath (repo dir pkg : Str) : Str :=
  if repo = [] ∨ dir = [] then pkg
  else if Str.hasPrefix repo pkg then pkg
  else repo ++ lit "/" ++ dir ++ lit "/" ++ pkg

/-! ### Versions -/

/-- Version.FromString of git.go (275-299): after the prefix `v` one more byte is dropped; a panic if there is none. -/
def gitVersion (s : Str) : Out Version := Mod.versionFrom (trimPrefix (lit "v") s)

/-- What versionCheckout and semanticCheckout (git.go 199-228) asks the repository for: nothing, the commit of the tag of that name, or the commit with
that hash. `tags` are the names of the references that `repo.Tags()` gives. -/
inductive Checkout where
  | keep
  | tag (name : Str)
  | hash (s : Str)
  deriving DecidableEq, Repr

def versionCheckout (tags : List Str) (version : Str) : Out Checkout :=
  if version = [] then .ok .keep
  else match gitVersion version with
    | .panic => .panic
    | .err => .ok (.hash version)
    | .ok _ => if version ∈ tags then .ok (.tag version) else .err

/-- parsePackageSpec (clawc.go 106-134). -/
def parseSpec (spec : Str) : Option (Str × Str) :=
  let spec := trimSpace spec
  if spec = [] then none
  else
    let pkg := trimSpace (spec.takeWhile fun c => c ≠ 64)
    if pkg = [] then none
    else some (pkg, trimSpace ((spec.dropWhile fun c => c ≠ 64).drop 1))

end Claw.Vendor
