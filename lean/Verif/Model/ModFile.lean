import Verif.Model.Text

/-!
# The files claw.mod, claw.work, local.replace and global.replace

`/repo/clawc/internal/imports/module.go`, `localreplace.go`, `globalreplace/globalreplace.go`, the types of `imports.go`,
`/repo/clawc/internal/work/work.go`, and what `/repo/clawc/clawc.go` and `/repo/clawc/internal/vendor/vendor.go` write.

Simplifications.
* `halfpike` as in `Model/Text`: lines of words, an item for the end of the line, no lines without words; the text ends in a
  newline.  `halfpike.Parse` calls `Validate` at the end: `LocalReplace.testing` is there to stop it.
* `strings.ToLower` is the one of ASCII letters.  Go's turns U+0130 into `i`, by which a line that is unknown here becomes a
  `require` line with a wrong spelling: both are errors.
* Package `unicode` is a parameter (`Uni`).
* Error texts are left out.
-/

namespace Claw.Mod

open Claw.Idl (Out Uni isComment lower atoi decimal)
open Claw.Text (lines words)

/-- A line: its words, of which there is at least one.  `Items` has one more item, for the end of the line. -/
abbrev Line := List Str

/-- The lines that halfpike hands out. -/
def fileLines (s : Bytes) : List Line := ((lines s).map words).filter fun l => !l.isEmpty

/-- `l.Items[i].Val`. -/
def item (l : Line) (i : Nat) : Out Str :=
  if h : i < l.length then .ok l[i] else if i = l.length then .ok [10] else .panic

/-- `len(l.Items)`. -/
def itemCount (l : Line) : Nat := l.length + 1

/-- commentOrEOL (module.go 311-321, globalreplace.go 78-88, work.go 150-164, where an index out of range is no panic). -/
def commentOrEOL (l : Line) (i : Nat) : Out Unit := do
  let s ← item l i
  if isComment s then .ok () else .guard (decide (itemCount l - i ≤ 1))

/-! ### Values -/

/-- imports.go 439-443. -/
structure Version where
  major : Int
  minor : Int
  patch : Int
  deriving DecidableEq, Repr

/-- imports.go 476-484. -/
structure Require where
  path : Str
  version : Version
  id : Str
  deriving DecidableEq, Repr

/-- imports.go 490-495; no code sets the versions. -/
structure Replace where
  fromPath : Str
  toPath : Str
  deriving DecidableEq, Repr

/-- module.go 19-29. -/
structure Module where
  path : Str
  required : List Require
  replace : List Replace
  acls : List Str
  deriving DecidableEq, Repr

/-- strings.Split with a separator of one byte. -/
def splitBy (sep : UInt8) : Str → List Str
  | [] => [[]]
  | c :: s =>
    match splitBy sep s with
    | [] => [[c]]
    | p :: ps => if c = sep then [] :: p :: ps else (c :: p) :: ps

/-- Version.FromString (imports.go 452-474).  `s[1:]` of an empty string is a panic. -/
def versionFrom (s : Str) : Out Version :=
  match s with
  | [] => .panic
  | _ :: s =>
    match splitBy 46 s with
    | [a, b, c] => do
      let a ← .ofOption (atoi a)
      let b ← .ofOption (atoi b)
      let c ← .ofOption (atoi c)
      .ok ⟨a, b, c⟩
    | _ => .err

/-- A decimal digit. -/
def isDigit (c : UInt8) : Bool := decide (48 ≤ c) && decide (c ≤ 57)

/-- `\d+` at the start of a text, as far as it goes. -/
def skipDigits : Str → Option Str
  | c :: s => if isDigit c then some (s.dropWhile isDigit) else none
  | [] => none

/-- `v(\d+)\.(\d+)\.(\d+)` at the start of a text. -/
def versionAt : Str → Bool
  | 118 :: s =>
    match skipDigits s with
    | some (46 :: s) =>
      match skipDigits s with
      | some (46 :: s) => (skipDigits s).isSome
      | _ => false
    | _ => false
  | _ => false

/-- verRegex.MatchString (module.go 149): anywhere in the text. -/
def hasVersion : Str → Bool
  | [] => false
  | c :: s => versionAt (c :: s) || hasVersion s

/-! ### claw.mod -/

/-- Where the parser is. -/
inductive Part where
  | top | require | replace | acls
  deriving DecidableEq, Repr

/-- parseRequireLine (module.go 151-181). -/
def requireLine (m : Module) (l : Line) : Out Module := do
  .guard (decide (3 ≤ itemCount l))
  let path ← item l 0
  let v ← item l 1
  if hasVersion v then do
    let ver ← versionFrom v
    .ok { m with required := m.required ++ [⟨path, ver, []⟩] }
  else do
    commentOrEOL l 2
    .ok { m with required := m.required ++ [⟨path, ⟨0, 0, 0⟩, v⟩] }

/-- parseReplaceLine (module.go 222-239, localreplace.go 120-138). -/
def replaceLine (l : Line) : Out Replace := do
  .guard (decide (4 ≤ itemCount l))
  let arrow ← item l 1
  .guard (arrow = lit "=>")
  let a ← item l 0
  let b ← item l 2
  commentOrEOL l 3
  .ok ⟨a, b⟩

/-- The head of a block (module.go 113-123 and 186-196, localreplace.go 84-94).  Whether the second word is a parenthesis is
not tested. -/
def blockHead (word : Str) (l : Line) : Out Unit := do
  .guard (decide (3 ≤ itemCount l))
  let first ← item l 0
  .guard (first = word)
  commentOrEOL l 2

/-- `strings.Index` of one byte: Go's -1 if there is none. -/
def indexOf (c : UInt8) (s : Str) : Int :=
  match s.findIdx? (· == c) with
  | some i => i
  | none => -1

/-- ParseACLs, its first line (module.go 241-269). -/
def aclsHead (m : Module) (l : Line) : Out (Part × Module) := do
  .guard (decide (3 ≤ itemCount l))
  let first ← item l 0
  .guard (first = lit "acls")
  let second ← item l 1
  if second = lit "=" then do
    let third ← item l 2
    .guard (third = lit "public")
    commentOrEOL l 3
    .ok (.top, { m with acls := m.acls ++ [lit "*"] })
  else do
    .guard (second = lit "(")
    commentOrEOL l 2
    .ok (.acls, m)

/-- One line of the file after the first: FindNext (module.go 77-108) with SkipLinesWithComments (43-54, where the arguments of
`strings.HasPrefix` are swapped), and the loops of ParseRequire (125-146), ParseReplace (198-219) and ParseACLs (271-294). -/
def step (m : Module) (l : Line) : Part → Out (Part × Module)
  | .top => do
    let first ← item l 0
    if Str.hasPrefix first (lit "//") then .ok (.top, m)
    else if lower first = lit "require" then
      if 0 ≤ m.required.length then .err
      else do
        blockHead (lit "require") l
        .ok (.require, m)
    else if lower first = lit "replace" then
      if 0 < m.replace.length then .err
      else do
        blockHead (lit "replace") l
        .ok (.replace, m)
    else if lower first = lit "acls" then
      if m.acls.length ≠ 0 then .err else aclsHead m l
    else .err
  | .require => do
    let first ← item l 0
    if first = lit ")" then do
      .guard (!m.required.isEmpty)
      commentOrEOL l 1
      .ok (.top, m)
    else do
      let m ← requireLine m l
      .ok (.require, m)
  | .replace => do
    let first ← item l 0
    if first = lit ")" then do
      .guard (!m.replace.isEmpty)
      commentOrEOL l 1
      .ok (.top, m)
    else do
      let r ← replaceLine l
      .ok (.replace, { m with replace := m.replace ++ [r] })
  | .acls => do
    let first ← item l 0
    if first = lit ")" then do
      .guard (!m.acls.isEmpty)
      commentOrEOL l 1
      .ok (.top, m)
    else
      let index := indexOf 42 first
      if index ≠ -1 ∨ index ≠ (first.length : Int) - 1 then .err
      else .ok (.acls, { m with acls := m.acls ++ [first] })

/-- The lines after the first.  The end of the file is fine between blocks only. -/
def run (p : Part) (m : Module) : List Line → Out Module
  | [] => if p = .top then .ok m else .err
  | l :: ls => do
    let (p, m) ← step m l p
    run p m ls

/-- path.Base. -/
def base (s : Str) : Str :=
  if s = [] then [46]
  else
    let t := (s.reverse.dropWhile (· == 47)).takeWhile (· ≠ 47)
    if t = [] then [47] else t.reverse

/-- idl.ValidPackage (idl.go 1665-1686). -/
def validPackage (u : Uni) (s : Str) : Out Unit :=
  match u.runes s with
  | [] => .panic
  | r :: rs => do
    .guard (!u.isUpper r)
    .guard (u.isLetter r)
    .guard (rs.all fun r => u.isLetter r || u.isNumber r || r == 95)

/-- ValidModuleName (module.go 324-348). -/
def validModuleName (u : Uni) (s : Str) : Out Unit := do
  validPackage u (base s)
  .guard (!Str.contains s (lit "//"))
  .guard ((u.runes (base s)).all fun r => u.isLetter r || u.isNumber r || r == 95 || r == 45 || r == 47)

/-- ParseModule (module.go 56-73). -/
def moduleLine (l : Line) : Out Str := do
  .guard (decide (3 ≤ itemCount l))
  let first ← item l 0
  .guard (first = lit "module")
  let path ← item l 1
  commentOrEOL l 2
  .ok path

/-- `halfpike.Parse` of a claw.mod file into a new Module (imports.go 287-294, vendor.go 149-166). -/
def parseModule (u : Uni) (text : Bytes) : Out Module :=
  match fileLines text with
  | [] => .err
  | l :: ls => do
    let path ← moduleLine l
    let m ← run .top ⟨path, [], [], []⟩ ls
    validModuleName u m.path
    .ok m

/-! ### local.replace -/

/-- One line of the file: FindNext (localreplace.go 59-79) with SkipLinesWithComments (46-57), and the loop of ParseReplace
(96-117).  `true` within the block. -/
def localStep (rs : List Replace) (l : Line) : Bool → Out (Bool × List Replace)
  | false => do
    let first ← item l 0
    if Str.hasPrefix first (lit "//") then .ok (false, rs)
    else if lower first = lit "replace" then
      if 0 < rs.length then .err
      else do
        blockHead (lit "replace") l
        .ok (true, rs)
    else .err
  | true => do
    let first ← item l 0
    if first = lit ")" then do
      .guard (!rs.isEmpty)
      commentOrEOL l 1
      .ok (false, rs)
    else do
      let r ← replaceLine l
      .ok (true, rs ++ [r])

/-- The lines of the file. -/
def localRun (b : Bool) (rs : List Replace) : List Line → Out (List Replace)
  | [] => if b then .err else .ok rs
  | l :: ls => do
    let (b, rs) ← localStep rs l b
    localRun b rs ls

/-- LocalReplace.Validate (localreplace.go 140-164).  `imports` are the imports of the idl.File the LocalReplace was made with,
`none` if that is nil: looking up an import is then a panic.  `good` tells which paths are directories with one .claw file. -/
def localValidate (imports : Option (List Str)) (good : Str → Bool) : List Replace → Out Unit
  | [] => .ok ()
  | r :: rs =>
    match imports with
    | none => .panic
    | some is => do
      .guard (is.contains r.fromPath)
      .guard (good r.toPath)
      localValidate imports good rs

/-- `halfpike.Parse` of a local.replace file. -/
def parseLocal (imports : Option (List Str)) (good : Str → Bool) (text : Bytes) : Out (List Replace) := do
  let rs ← localRun false [] (fileLines text)
  localValidate imports good rs
  .ok rs

/-- Config.readLocalReplace (imports.go 313-335) of a file that exists, as Config.Read (202) and VendoredConfig.Read (598) call
it: with `c.Root`, which is set at their ends only (240, 636). -/
def readLocalReplace (good : Str → Bool) (text : Bytes) : Out (List Replace) := parseLocal none good text

/-- VendorManager.parseLocalReplace (vendor.go 169-188) of a file that exists: into `imports.LocalReplace{}`. -/
def vendorLocalReplace (good : Str → Bool) (text : Bytes) : Out (List Replace) := parseLocal none good text

/-! ### global.replace -/

/-- GlobalReplace.FindNext (globalreplace.go 53-61) with SkipLinesWithComments (20-31). -/
def globalRest : List Line → Out Unit
  | [] => .ok ()
  | l :: ls => do
    let first ← item l 0
    if Str.hasPrefix first (lit "//") then globalRest ls else .err

/-- `halfpike.Parse` of a global.replace file: ParseWith (globalreplace.go 33-51). -/
def parseGlobal (text : Bytes) : Out Str :=
  match fileLines text with
  | [] => .err
  | l :: ls => do
    .guard (decide (3 ≤ itemCount l))
    let first ← item l 0
    .guard (first = lit "with")
    let path ← item l 1
    commentOrEOL l 2
    globalRest ls
    .ok path

/-! ### claw.work -/

/-- work.go 19-24. -/
structure Work where
  repo : Str
  vendorDir : Str
  deriving DecidableEq, Repr

/-- The lines before the repo directive: skipLinesWithComments (work.go 59-70). -/
def skipComments : List Line → List Line
  | [] => []
  | l :: ls => if isComment (l.headD []) then skipComments ls else l :: ls

/-- FindNext and ParseVendorDir (work.go 95-134). -/
def workRest (w : Work) : List Line → Out Work
  | [] => .ok w
  | l :: ls => do
    let first ← item l 0
    if isComment first then workRest w ls
    else if lower first = lit "vendordir" then
      if w.vendorDir ≠ [] then .err
      else do
        .guard (decide (3 ≤ itemCount l))
        .guard (first = lit "vendorDir")
        let dir ← item l 1
        commentOrEOL l 2
        workRest { w with vendorDir := dir } ls
    else .err

/-- Work.Validate (work.go 27-41); `filepath.IsAbs` of Unix. -/
def validWork (w : Work) : Out Unit := do
  .guard (w.repo ≠ [])
  .guard (w.vendorDir ≠ [])
  .guard (!Str.contains w.repo (lit "//"))
  .guard (!Str.hasPrefix (lit "/") w.vendorDir)

/-- Parse (work.go 167-176) with ParseRepo (73-92). -/
def parseWork (text : Bytes) : Out Work :=
  match skipComments (fileLines text) with
  | [] => .err
  | l :: ls => do
    .guard (decide (3 ≤ itemCount l))
    let first ← item l 0
    .guard (first = lit "repo")
    let repo ← item l 1
    commentOrEOL l 2
    let w ← workRest ⟨repo, []⟩ ls
    validWork w
    .ok w

/-- ValidateModuleInRepo (work.go 44-52). -/
def moduleInRepo (modulePath repoPath : Str) : Bool :=
  Str.hasPrefix repoPath modulePath &&
    !(decide (modulePath.length > repoPath.length) && modulePath[repoPath.length]? != some 47)

/-! ### What is written -/

/-- writeWorkFile (clawc.go 455-458). -/
def workText (repo dir : Str) : Bytes := lit "repo " ++ repo ++ lit "\n\nvendorDir " ++ dir ++ lit "\n"

/-- writeModFile (clawc.go 461-464). -/
def modText (path : Str) : Bytes := lit "module " ++ path ++ lit "\n"

/-- handleInit (clawc.go 399-404 and 437-442): the path of the new module; `rel` is the directory relative to the one of
claw.work or of the git root. -/
def initPath (repo rel : Str) : Str := if rel = lit "." then repo else repo ++ lit "/" ++ rel

/-- `fmt.Sprintf("%d", n)` of an int. -/
def intText (n : Int) : Str := if n < 0 then 45 :: decimal n.natAbs else decimal n.natAbs

/-- A line of the require block of serializeModule (vendor.go 627-633). -/
def requireText (r : Require) : Bytes :=
  if r.version ≠ ⟨0, 0, 0⟩ then
    lit "    " ++ r.path ++ lit " v" ++ intText r.version.major ++ lit "." ++ intText r.version.minor ++ lit "." ++
      intText r.version.patch ++ lit "\n"
  else if r.id ≠ [] then lit "    " ++ r.path ++ lit " " ++ r.id ++ lit "\n"
  else lit "    " ++ r.path ++ lit "\n"

/-- serializeModule (vendor.go 618-658). -/
def moduleText (m : Module) : Bytes :=
  lit "module " ++ m.path ++ lit "\n\n" ++
    (if m.required = [] then [] else lit "require (\n" ++ m.required.flatMap requireText ++ lit ")\n\n") ++
    (if m.replace = [] then []
      else lit "replace (\n" ++ m.replace.flatMap (fun r => lit "    " ++ r.fromPath ++ lit " => " ++ r.toPath ++ lit "\n") ++
        lit ")\n\n") ++
    (if m.acls = [] then []
      else lit "acls (\n" ++ m.acls.flatMap (fun a => lit "    " ++ a ++ lit "\n") ++ lit ")\n")

end Claw.Mod
