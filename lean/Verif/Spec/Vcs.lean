import Verif.Model.GoStr

/-!
# What git says about a repository
-/

namespace Claw.VcsSpec

/-- The version `(a, b, c)` is 2.18.0 or newer. -/
def NewEnough (a b _c : Nat) : Prop := 2 < a ∨ (a = 2 ∧ 18 ≤ b)

/-- What is said of where a remote repository is. -/
structure Remote where
  scheme : Str
  user : Str
  host : Str
  path : Str

/-- What users call the repository: the prefix of the import paths of its packages. -/
def Remote.name (r : Remote) : Str := r.host ++ 47 :: r.path

/-- `scheme://user@host/path`. -/
def Remote.url (r : Remote) : Str :=
  r.scheme ++ lit "://" ++ (if r.user = [] then [] else r.user ++ [64]) ++ r.host ++ 47 :: r.path

/-- `user@host:path`, the way that git takes for ssh. -/
def Remote.scp (r : Remote) : Str :=
  (if r.user = [] then [] else r.user ++ [64]) ++ r.host ++ 58 :: r.path

def letter (c : UInt8) : Bool := (97 ≤ c && c ≤ 122) || (65 ≤ c && c ≤ 90)

/-- Letters, digits, `-`, `.` and `_`. -/
def plain (c : UInt8) : Bool := letter c || (48 ≤ c && c ≤ 57) || c == 45 || c == 46 || c == 95

/-- Letters only in the scheme, plain names of the user and the host, a path without `#`, `%`, `?`, white space and control characters. -/
structure Remote.Plain (r : Remote) : Prop where
  scheme : r.scheme ≠ [] ∧ ∀ c ∈ r.scheme, letter c = true
  user : ∀ c ∈ r.user, plain c = true
  host : r.host ≠ [] ∧ ∀ c ∈ r.host, plain c = true
  path : ∀ c ∈ r.path, 32 < c ∧ c ≠ 127 ∧ c ≠ 35 ∧ c ≠ 37 ∧ c ≠ 63

/-- The directories of a linked worktree: git keeps `main/.git/worktrees/w` for it. -/
def worktreeDir (main w : Str) : Str := main ++ lit "/.git/worktrees/" ++ w

end Claw.VcsSpec
