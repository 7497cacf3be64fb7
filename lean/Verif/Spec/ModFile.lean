import Verif.Model.ModFile

/-!
# claw.mod files as they are documented

`/repo/docs/modules/modules.md`.
-/

namespace Claw.Mod

/-- A comment at the end of a line, if any. -/
def tailText : Option Bytes → Bytes
  | none => []
  | some c => lit " // " ++ c

/-- A part of a claw.mod file after its first line. -/
inductive Sect where
  /-- A blank line. -/
  | blank (b : Bytes)
  /-- A line with a comment, with a blank after the slashes. -/
  | comment (ind c : Bytes)
  /-- The replacements, each with the blanks before it and its comment. -/
  | replace (rs : List (Bytes × Replace × Option Bytes)) (t1 t2 : Option Bytes)
  /-- Everyone may import the package. -/
  | isPublic (t : Option Bytes)

/-- A line of the replace block. -/
def replaceText (r : Bytes × Replace × Option Bytes) : Bytes :=
  r.1 ++ r.2.1.fromPath ++ lit " => " ++ r.2.1.toPath ++ tailText r.2.2 ++ [10]

/-- The text of a part. -/
def Sect.text : Sect → Bytes
  | .blank b => b ++ [10]
  | .comment ind c => ind ++ lit "// " ++ c ++ [10]
  | .replace rs t1 t2 => lit "replace (" ++ tailText t1 ++ [10] ++ rs.flatMap replaceText ++ lit ")" ++ tailText t2 ++ [10]
  | .isPublic t => lit "acls = public" ++ tailText t ++ [10]

/-- The replacements of the parts. -/
def replacesOf : List Sect → List Replace
  | [] => []
  | .replace rs _ _ :: ss => rs.map (·.2.1) ++ replacesOf ss
  | _ :: ss => replacesOf ss

/-- Whether one of the parts makes the package public. -/
def publicOf : List Sect → Bool
  | [] => false
  | .isPublic _ :: _ => true
  | _ :: ss => publicOf ss

/-- How many replace blocks there are. -/
def replaceBlocks (ss : List Sect) : Nat := (ss.filter fun s => match s with | .replace .. => true | _ => false).length

/-- How many lines for public access there are. -/
def publicLines (ss : List Sect) : Nat := (ss.filter fun s => match s with | .isPublic _ => true | _ => false).length

/-- A claw.mod file: the module line and parts. -/
def modFile (path : Str) (t : Option Bytes) (ss : List Sect) : Bytes :=
  lit "module " ++ path ++ tailText t ++ [10] ++ ss.flatMap Sect.text

end Claw.Mod
