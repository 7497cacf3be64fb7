import Verif.Model.Comments

/-!
# Comments in Go and in schemas
-/

namespace Claw.Comments

open Claw.Idl

/-- The lines of a text that ends in a newline. -/
def textLines : Str → List Str
  | [] => []
  | c :: s =>
    if c = 10 then [] :: textLines s
    else match textLines s with
      | [] => [[c]]
      | l :: ls => (c :: l) :: ls

/-- Every line of the text is a comment with a blank behind the slashes: Go compiles none of it and takes none of it for a directive such as
`//go:build`. -/
def OnlyComments (s : Str) : Prop := ∀ l ∈ textLines s, lit "// " <+: l

/-- A comment line as most people write it: slashes, and words with one blank before each. -/
def commentLine (ws : List Str) : Line := ⟨lit "//" :: ws ++ [lit "\n"], false⟩

/-- Its text. -/
def commentLineText (ws : List Str) : Str := lit "//" ++ ws.flatMap (fun w => 32 :: w) ++ lit "\n"

/-- Words are not empty and have no newline. -/
def Words (ws : List Str) : Prop := ∀ w ∈ ws, w ≠ [] ∧ (10 : UInt8) ∉ w

/-- Lines that are no comments, and the line that ends the file. -/
def keep (l : Line) : Bool :=
  l.eof || match l.items with
    | first :: _ => !isComment first
    | [] => true

/-! ### A file without comments -/

def stripVal (v : EnumVal) : EnumVal := { v with comment := [] }

def stripEnum (e : Enum) : Enum :=
  { e with names := e.names.map fun p => (p.1, stripVal p.2), values := e.values.map fun p => (p.1, stripVal p.2) }

def stripField (f : Field) : Field := { f with comment := [] }

def stripFile (f : File) : File :=
  { f with structs := f.structs.map fun p => (p.1, p.2.map stripField), enums := f.enums.map stripEnum }

/-- What comes out, with a function applied to it. -/
def mapOk {α β : Type} (f : α → β) : Out α → Out β
  | .ok a => .ok (f a)
  | .err => .err
  | .panic => .panic

end Claw.Comments
