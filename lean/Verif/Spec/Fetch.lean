import Verif.Model.Fetch

/-!
# What is in repositories
-/

namespace Claw.Fetch

open Claw.Mod (parseGlobal)

/-- Elements with slashes between them. -/
def slash : List Str → Str
  | [] => []
  | [x] => x
  | x :: y :: l => x ++ 47 :: slash (y :: l)

/-- The path of a package: repository `c` of user `b` at host `a`, and the directory in it. -/
def path (a b c : Str) (inside : List Str) : Str := slash (a :: b :: c :: inside)

/-- The elements are such. -/
def Elems (l : List Str) : Prop := ∀ x ∈ l, 47 ∉ x

/-- Names in a directory are different. -/
def Dir.Ok (d : Dir) : Prop := (d.map (·.1)).Nodup

/-- A directory with one schema file, and nothing that leads elsewhere. -/
def Holds (d : Dir) (content : Bytes) : Prop :=
  d.Ok ∧ lit "global.replace" ∉ d.map (·.1) ∧ ∃ f, (f, some content) ∈ d ∧ lit ".claw" <:+ f ∧
    ∀ x ∈ d, lit ".claw" <:+ x.1 → x.1 = f

/-- A directory that leads to another package. -/
def Leads (d : Dir) (p : Str) : Prop :=
  d.Ok ∧ ∃ text, (lit "global.replace", some text) ∈ d ∧ parseGlobal text = .ok p

/-- From a directory of a repository, over `n` others of the same repository and commit, to the schema file. -/
inductive Chain (a b c : Str) (t : Tree) : Nat → List Str → Bytes → Prop
  | here {inside d content} : t inside = some d → Holds d content → Chain a b c t 0 inside content
  | there {n inside d inside' content} : t inside = some d → Leads d (path a b c inside') → Elems inside' → Chain a b c t n inside' content →
      Chain a b c t (n + 1) inside content

/-- Every package that a directory leads to has a path of at least three elements. -/
def Points (w : World) : Prop :=
  ∀ a b c r h t inside d p, w a b c = some r → r.commits h = some t → t inside = some d → ∀ text, (lit "global.replace", some text) ∈ d →
    parseGlobal text = .ok p → 3 ≤ (Claw.Mod.splitBy 47 p).length

end Claw.Fetch
