import Verif.Model.Writer

/-!
# What is asked of writing generated files
-/

namespace Claw.Writer

/-- The name of the main file of a package. -/
def mainName (r : Rendered) : Str := r.pkg ++ lit ".go"

/-- The directory the files of a package go to, if they are to be written. -/
def dirOf (cfg : Cfg) (r : Rendered) : Option Str := if cfg.should r.path then cfg.abs r.path else none

/-- `f` is the path of a file generated for one of the packages. -/
def Ours (cfg : Cfg) (rs : List Rendered) (f : Str) : Prop :=
  ∃ r ∈ rs, ∃ d, dirOf cfg r = some d ∧ ∃ n ∈ mainName r :: r.files.map (·.1), f = join d n

/-- A file name: not empty, no slash. -/
def Leaf (n : Str) : Prop := n ≠ [] ∧ 47 ∉ n

/-- Packages as the compiler has them: names are file names, the additional files of a package have different names, and no two packages
have one directory. -/
structure Sane (cfg : Cfg) (rs : List Rendered) : Prop where
  leaf : ∀ r ∈ rs, ∀ n ∈ mainName r :: r.files.map (·.1), Leaf n
  names : ∀ r ∈ rs, (r.files.map (·.1)).Nodup
  dirs : (rs.filterMap (dirOf cfg)).Nodup

/-- The Go tools take a file for a test (go/build: files whose name ends in `_test.go`). -/
def isTestFile (f : Str) : Prop := ∃ s, f = s ++ lit "_test.go"

end Claw.Writer
