import Verif.Model.Init

/-!
# Where claw.work is
-/

namespace Claw.InitSpec

open Claw.Init

/-- `d` is the nearest directory, from `dir` up, with a claw.work file. -/
def Nearest (fs : FS) (dir d : Dir) : Prop :=
  d <+: dir ∧ fs d (lit "claw.work") ≠ .missing ∧
    ∀ e, d <+: e → e <+: dir → e ≠ d → fs e (lit "claw.work") = .missing

/-- There is none from `dir` up. -/
def NoneUp (fs : FS) (dir : Dir) : Prop := ∀ e, e <+: dir → fs e (lit "claw.work") = .missing

/-- The path of a module: that of the repository and the names below it. -/
def modulePath (repo : Str) (below : List Str) : Str := below.foldl (fun p x => p ++ 47 :: x) repo

/-- How git names a directory: `/a/b/`. -/
def dirText (d : Dir) : Str := d.foldl (fun p x => p ++ 47 :: x) [] ++ [47]

/-- Names of directories. -/
def Names (d : Dir) : Prop := ∀ x ∈ d, x ≠ [] ∧ (47 : UInt8) ∉ x

end Claw.InitSpec
