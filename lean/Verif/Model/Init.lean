import Verif.Model.Vcs
import Verif.Model.ModFile

/-!
# The command line of the compiler, claw.work and `clawc init`

`/repo/clawc/clawc.go`: main 24-47 and handleInit 371-452; `/repo/clawc/internal/work/work.go`: FindWork 181-209.

Simplifications.
* A directory is the list of the names on the way to it from the root of the file system; paths have no links, `.` and `..`.
* Reading the directory that the compiler runs in and writing files do not fail.
-/

namespace Claw.Init

open Claw.Idl (Out)
open Claw.Mod (Work parseWork workText modText initPath splitBy)
open Claw.Vendor (trimSuffix)

/-! ### The command line -/

inductive Command where
  | get (args : List Str)
  | init
  | compile (args : List Str)
  | unknown
  deriving DecidableEq

/-- main (clawc.go 24-47). -/
def command (args : List Str) : Command :=
  match args with
  | a :: rest => if a = lit "get" then .get rest else if a = lit "init" then .init else .unknown
  | [] => .compile []

/-! ### claw.work -/

inductive File where
  | missing
  /-- it exists but cannot be read -/
  | unreadable
  | content (b : Bytes)
  deriving DecidableEq

abbrev Dir := List Str

/-- The files of each directory. -/
abbrev FS := Dir → Str → File

/-- One turn of the loop of FindWork (work.go 188-207); `next` is what comes of the directories further up. -/
def look (f : File) (dir : Dir) (next : Out (Work × Dir)) : Out (Work × Dir) :=
  match f with
  | .content b =>
    match parseWork b with
    | .ok w => .ok (w, dir)
    | .err => .err
    | .panic => .panic
  | .unreadable => .err
  | .missing => next

/-- The loop of FindWork (work.go 187-208); the directory from its end. -/
def findUp (fs : FS) : List Str → Out (Work × Dir)
  | [] => look (fs [] (lit "claw.work")) [] .err
  | x :: up => look (fs (x :: up).reverse (lit "claw.work")) (x :: up).reverse (findUp fs up)

/-- FindWork (work.go 181-209). -/
def findWork (fs : FS) (dir : Dir) : Out (Work × Dir) := findUp fs dir.reverse

/-! ### clawc init -/

/-- Elements with slashes between them. -/
def joined : List Str → Str
  | [] => []
  | [x] => x
  | x :: y :: l => x ++ 47 :: joined (y :: l)

/-- What remains of two directories without what they have in common. -/
def strip : Dir → Dir → Dir × Dir
  | a :: base, b :: target => if a = b then strip base target else (a :: base, b :: target)
  | base, target => (base, target)

/-- filepath.Rel. -/
def rel (base target : Dir) : Str :=
  match strip base target with
  | ([], []) => lit "."
  | (up, down) => joined (up.map (fun _ => lit "..") ++ down)

/-- filepath.Abs of an absolute path. -/
def toDir (s : Str) : Dir := (splitBy 47 s).filter (· ≠ [])

/-- What git says: Root and Origin of vcs.go. -/
structure Git where
  root : Out Str
  origin : Out Str

structure Written where
  dir : Dir
  name : Str
  text : Bytes
  deriving DecidableEq

/-- handleInit (clawc.go 371-452); `git` is `none` where NewGit fails. The result is what is written; an error exits. -/
def handleInit (fs : FS) (git : Option Git) (cwd : Dir) : Out (List Written) :=
  if fs cwd (lit "claw.mod") ≠ .missing then .err
  else
    match findWork fs cwd with
    | .panic => .panic
    | .ok (w, dir) => .ok [⟨cwd, lit "claw.mod", modText (initPath w.repo (rel dir cwd))⟩]
    | .err =>
      match git with
      | none => .err
      | some g => do
        let r ← g.root
        let r := trimSuffix (lit "/") r
        let top := if r = [] then cwd else toDir r
        let o ← g.origin
        .ok [⟨top, lit "claw.work", workText o (lit "claw_vendor")⟩, ⟨cwd, lit "claw.mod", modText (initPath o (rel top cwd))⟩]

/-- The files after writing one. -/
def write (fs : FS) (x : Written) : FS := fun d n => if d = x.dir ∧ n = x.name then .content x.text else fs d n

def writeAll (fs : FS) (l : List Written) : FS := l.foldl write fs

end Claw.Init
