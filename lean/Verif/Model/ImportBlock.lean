import Verif.Model.ModFile

/-!
# The import block of a schema file

`/repo/clawc/internal/idl/idl.go` 410-502 and 1636-1653, 1712-1731. Lines and words as in `Model/ModFile`: the text ends in a newline, so
that the end of the file is a line of its own. The map of imports is the list of its values in the order of insertion.
-/

namespace Claw.Import

open Claw.Idl (Out Uni isComment)
open Claw.Mod (Line fileLines item itemCount commentOrEOL base validPackage)

/-- ImportEntry (idl.go 415-418). -/
structure Entry where
  path : Str
  name : Str
  deriving DecidableEq, Repr

/-- `strings.Trim(p, "\"")`. -/
def trimQuotes (s : Str) : Str := ((s.dropWhile (· == 34)).reverse.dropWhile (· == 34)).reverse

/-- validImportPath (idl.go 1712-1725). -/
def validImportPath (p : Str) : Out Str := do
  .guard (Str.hasPrefix [34] p && decide (p.getLast? = some 34))
  let wq := trimQuotes p
  .guard (decide ((47 : UInt8) ∈ wq))
  .guard (decide (wq.getLast? ≠ some 47))
  .ok wq

/-- withoutCommentEOL (idl.go 1640-1653). -/
def withoutComment (l : Line) : List Str := l.takeWhile fun w => !isComment w

/-- The map is asked for the name and set (idl.go 473-477 and 488-492). -/
def add (m : List Entry) (e : Entry) : Out (List Entry) :=
  if e.name ∈ m.map (·.name) then .err else .ok (m ++ [e])

/-- One line of the block (idl.go 465-496). -/
def entryLine (u : Uni) (m : List Entry) (l : Line) : Out (List Entry) :=
  match withoutComment l with
  | [_] => do
    let q ← item l 0
    let p ← validImportPath q
    add m ⟨p, base p⟩
  | [_, _] => do
    let n ← item l 0
    validPackage u n
    let q ← item l 1
    let p ← validImportPath q
    add m ⟨p, n⟩
  | _ => .err

/-- The loop (idl.go 451-497). -/
def loop (u : Uni) (m : List Entry) : List Line → Out (List Entry × List Line)
  | [] => .err
  | l :: ls => do
    let first ← item l 0
    if first = lit ")" then do
      commentOrEOL l 1
      .ok (m, ls)
    else do
      let m ← entryLine u m l
      loop u m ls

/-- Import.parse (idl.go 434-502): the imports and the lines that are left. -/
def importBlock (u : Uni) : List Line → Out (List Entry × List Line)
  | [] => .err
  | l :: ls => do
    .guard (decide (3 ≤ itemCount l))
    let second ← item l 1
    .guard (second = lit "(")
    commentOrEOL l 2
    let r ← loop u [] ls
    .guard (!r.1.isEmpty)
    .ok r

/-- ByPkgName (idl.go 425-432). -/
def byName (m : List Entry) (n : Str) : Option Entry := m.find? fun e => e.name = n

end Claw.Import
