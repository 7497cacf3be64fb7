import Verif.Model.Idl

/-!
# The comments of a schema

`/repo/clawc/internal/idl/idl.go` 241-267, 605-657 and 1220-1252: the comments that stand before structs, enums, fields and enumerators;
`/repo/clawc/internal/idl/struct.tmpl` 5-7, 72-74 and so on, `/repo/clawc/internal/render/golang/templates/enums.tmpl` 2-4 and 30-32: how they are written to the Go files.

`Model/Idl` keeps the words of comments only. Here is their text.
-/

namespace Claw.Comments

open Claw.Idl (Line isComment commentText)

/-- `strings.Join(l, sep)`. -/
def join (sep : Str) : List Str → Str
  | [] => []
  | [x] => x
  | x :: y :: l => x ++ sep ++ join sep (y :: l)

/-- The text of a comment line (idl.go 254-260, 619-625 and 1237-1243). -/
def lineText (l : Line) : Str := join (lit " ") (commentText l)

/-- The text of consecutive comment lines (idl.go 266, 653 and 1248). -/
def blockText (ls : List Line) : Str := join (lit "\n// ") (ls.map lineText)

/-- CollectComments (idl.go 244-267): the comment, and the lines that are left. -/
def collect : List Line → List Line → Str × List Line
  | seen, [] => (blockText seen, [])
  | seen, l :: ls =>
    if l.eof then (blockText seen, ls)
    else
      match l.items with
      | first :: _ => if isComment first then collect (seen ++ [l]) ls else (blockText seen, l :: ls)
      | [] => (blockText seen, l :: ls)

/-- `{{- if .Comment }} // {{ .Comment }} {{- end }}` (struct.tmpl 5-7; enums.tmpl 2-4). -/
def emit (c : Str) : Str := if c = [] then [] else lit "// " ++ c ++ lit "\n"

end Claw.Comments
