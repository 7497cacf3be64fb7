import Verif.Model.ImportBlock
import Verif.Spec.ModFile
import Verif.Lemmas.ModFile

/-!
# Import blocks as they are written
-/

namespace Claw.Import

open Claw.Idl (Uni isComment)
open Claw.Mod (tailText Word TailOk)
open Claw.Text (BlankText Solid)

/-- A line of a block. -/
inductive ImpLine where
  | blank (b : Bytes)
  | comment (ind c : Bytes)
  | imp (ind : Bytes) (rename : Option Str) (path : Str) (t : Option Bytes)
  deriving DecidableEq, Repr

def renameText : Option Str → Bytes
  | none => []
  | some n => n ++ [32]

def ImpLine.text : ImpLine → Bytes
  | .blank b => b ++ [10]
  | .comment ind c => ind ++ lit "// " ++ c ++ [10]
  | .imp ind rename path t => ind ++ renameText rename ++ [34] ++ path ++ [34] ++ tailText t ++ [10]

/-- The text of a block, with comments behind its parentheses. -/
def blockText (ls : List ImpLine) (t1 t2 : Option Bytes) : Bytes :=
  lit "import (" ++ tailText t1 ++ [10] ++ ls.flatMap ImpLine.text ++ lit ")" ++ tailText t2 ++ [10]

/-- The pieces are what they are called: blanks are blank, a rename is a word, and not the end of the block or a comment, a path has no
blanks and no quotes. -/
def ImpLine.Ok : ImpLine → Prop
  | .blank b => BlankText b
  | .comment ind c => BlankText ind ∧ 10 ∉ c
  | .imp ind rename path t => BlankText ind ∧ (∀ n, rename = some n → Word n ∧ n ≠ lit ")" ∧ isComment n = false) ∧
      Solid path ∧ 34 ∉ path ∧ TailOk t

/-- What follows the last slash. -/
def lastElem (p : Str) : Str := (p.reverse.takeWhile (· ≠ 47)).reverse

/-- The import of a line. -/
def ImpLine.entry? : ImpLine → Option Entry
  | .imp _ rename path _ => some ⟨path, rename.getD (lastElem path)⟩
  | _ => none

def entries (ls : List ImpLine) : List Entry := ls.filterMap ImpLine.entry?

/-- A name of a package: a letter that is not upper case, then letters, numbers and underscores. -/
def PackageName (u : Uni) (s : Str) : Prop :=
  ∃ r rs, u.runes s = r :: rs ∧ u.isUpper r = false ∧ u.isLetter r = true ∧
    ∀ x ∈ rs, u.isLetter x = true ∨ u.isNumber x = true ∨ x = 95

/-- A line that can be: a rename is a name of a package, a path has a slash and something behind the last one. -/
def ImpLine.Good (u : Uni) : ImpLine → Prop
  | .imp _ rename path _ => (∀ n, rename = some n → PackageName u n) ∧ 47 ∈ path ∧ path.getLast? ≠ some 47
  | _ => True

/-- A block that can be: it imports something, each line can be and no name is given twice. -/
def Good (u : Uni) (ls : List ImpLine) : Prop :=
  entries ls ≠ [] ∧ (∀ l ∈ ls, l.Good u) ∧ ((entries ls).map (·.name)).Nodup

/-- A line with nothing but a comment. -/
def ImpLine.isComment : ImpLine → Bool
  | .comment _ _ => true
  | _ => false

end Claw.Import
