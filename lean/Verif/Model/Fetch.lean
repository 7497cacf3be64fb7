import Verif.Model.Vendor
import Verif.Model.Json

/-!
# Fetching the schema file of a package from a git repository

`/repo/clawc/internal/imports/git/git.go` 28-198 and 230-253. The commits of repositories are those of the remote.

Simplifications.
* go-git: after PlainClone or Pull the worktree is at the head of the remote, and Checkout of a hash gives the files of that commit, or an
  error if there is none. (A clone that was left at a commit from which the head cannot be reached by fast-forward fails; this is left out.)
* A path inside the repository is the list of its elements; filepath.Join cleans it, which is part of the function `Tree`.
* SHA-256 is a parameter.
-/

namespace Claw.Fetch

open Claw.Idl (Out)
open Claw.Mod (splitBy parseGlobal)
open Claw.Vendor (hasSuffix versionCheckout)
open Claw.Json (hexOf)

/-- plumbing.Hash: twenty bytes. -/
abbrev Hash := List UInt8

/-- The names in a directory; a directory in it has no contents. -/
abbrev Dir := List (Str × Option Bytes)

abbrev Tree := List Str → Option Dir

/-- A repository: the head, the commits, and the references to tags with their full names. -/
structure Repo where
  head : Hash
  commits : Hash → Option Tree
  tags : List (Str × Hash)

/-- `https://domain/user/repo.git` (git.go 115). -/
abbrev World := Str → Str → Str → Option Repo

/-- ClawFile (git.go 23-27). -/
structure ClawFile where
  content : Bytes
  version : Str
  sha : Str
  deriving DecidableEq, Repr

def hexVal (c : UInt8) : Option UInt8 :=
  if 48 ≤ c ∧ c ≤ 57 then some (c - 48)
  else if 97 ≤ c ∧ c ≤ 102 then some (c - 87)
  else if 65 ≤ c ∧ c ≤ 70 then some (c - 55)
  else none

/-- hex.DecodeString, what it has when it stops. -/
def hexDecode : Str → List UInt8
  | a :: b :: s => match hexVal a, hexVal b with
    | some x, some y => (16 * x + y) :: hexDecode s
    | _, _ => []
  | _ => []

/-- plumbing.NewHash: errors are ignored. -/
def newHash (s : Str) : Hash := (hexDecode s ++ List.replicate 20 0).take 20

/-- versionCheckout, semanticCheckout and hashCheckout (git.go 199-235). -/
def checkout (r : Repo) (version : Str) : Out Tree :=
  match versionCheckout (r.tags.map (·.1)) version with
  | .panic => .panic
  | .err => .err
  | .ok .keep => .ofOption (r.commits r.head)
  | .ok (.tag n) => do
    let h ← .ofOption ((r.tags.find? fun t => t.1 = n).map (·.2))
    .ofOption (r.commits h)
  | .ok (.hash s) => .ofOption (r.commits (newHash s))

/-- FindClawFile (git.go 238-260) and reading the file (73-76). -/
def find (d : Dir) : Out Bytes :=
  match d.filter fun x => hasSuffix (lit ".claw") x.1 with
  | [(_, some c)] => .ok c
  | _ => .err

/-- getClawFile (git.go 35-80) with cloneRepo (82-163), with the number of repositories that may still be looked at. -/
def get (sha : Bytes → Str) (w : World) : Nat → Str → Str → Out ClawFile
  | 0, _, _ => .err
  | n + 1, pkg, version =>
    match splitBy 47 pkg with
    | a :: b :: c :: inside => do
      let r ← .ofOption (w a b c)
      let t ← checkout r version
      let version := if version = [] then hexOf r.head else version
      let d ← .ofOption (t inside)
      match d.find? fun x => x.1 = lit "global.replace" with
      | some (_, some text) => do
        let p ← parseGlobal text
        get sha w n p version
      | some (_, none) => .err
      | none => do
        let c ← find d
        .ok ⟨c, version, sha c⟩
    | _ => .panic

/-- GetClawFile (git.go 31-33). -/
def getClawFile (sha : Bytes → Str) (w : World) (pkg version : Str) : Out ClawFile := get sha w 5 pkg version

/-- GetLatestVersion (git.go 186-192). -/
def latest (w : World) (pkg : Str) : Out Str :=
  match splitBy 47 pkg with
  | a :: b :: c :: _ => do
    let r ← .ofOption (w a b c)
    let _ ← checkout r []
    .ok (hexOf r.head)
  | _ => .panic

end Claw.Fetch
