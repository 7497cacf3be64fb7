import Verif.Model.Vendor

/-!
# What the compiler asks git about the repository it is in

`/repo/clawc/internal/vcs/vcs.go` 25-206. What git prints is an argument; `none` is a command that fails.

Simplifications.
* bytes.TrimSpace and strings.TrimSpace drop the white space of ASCII only.
* url.Parse is that of Go's net/url without the decoding of `%` and without hosts in brackets (`[::1]`).
-/

namespace Claw.Vcs

open Claw.Idl (Out atoi)
open Claw.Mod (splitBy isDigit)
open Claw.Vendor (splitStr trimSuffix inRepo absRel)

structure Version where
  major : Int
  minor : Int
  patch : Int
  deriving DecidableEq, Repr

/-- Version.FromString (vcs.go 35-56). -/
def fromString (s : Str) : Out Version :=
  match splitBy 46 s with
  | [a, b, c] => do
    let a ← .ofOption (atoi a)
    let b ← .ofOption (atoi b)
    let c ← .ofOption (atoi c)
    .ok ⟨a, b, c⟩
  | _ => .err

/-- meetsMin (vcs.go 58-66). -/
def meetsMin (v : Version) : Bool :=
  if v.major < 2 then false else if v.minor < 18 then false else true

/-- The match of `\d+\.\d+\.\d+` (vcs.go 117) that starts where the text does. -/
def matchVer (s : Str) : Option Str :=
  let a := s.takeWhile isDigit
  match a, s.dropWhile isDigit with
  | _ :: _, 46 :: s =>
    let b := s.takeWhile isDigit
    match b, s.dropWhile isDigit with
    | _ :: _, 46 :: s =>
      match s.takeWhile isDigit with
      | [] => none
      | c => some (a ++ 46 :: (b ++ 46 :: c))
    | _, _ => none
  | _, _ => none

/-- `verRE.Find` (vcs.go 129): the leftmost match. -/
def findVer : Str → Option Str
  | [] => none
  | c :: s =>
    match matchVer (c :: s) with
    | some m => some m
    | none => findVer s

/-- version (vcs.go 119-139). -/
def version (out : Option Str) : Out Version :=
  match out with
  | none => .err
  | some b =>
    match findVer b with
    | none => .err
    | some m => fromString m

def isSpace (c : UInt8) : Bool := c == 32 || (decide (9 ≤ c) && decide (c ≤ 13))

/-- bytes.TrimSpace and strings.TrimSpace. -/
def trimSpace (s : Str) : Str := ((s.dropWhile isSpace).reverse.dropWhile isSpace).reverse

/-- checkInRepo (vcs.go 100-113): is there an error? -/
def checkInRepo (out : Option Str) : Out Unit :=
  match out with
  | none => .err
  | some b => if trimSpace b = lit "true" then .ok () else .err

/-- NewGit (vcs.go 78-97) where git is installed: `inside` and `ver` are what the two commands print. -/
def newGit (inside ver : Option Str) : Out Version := do
  checkInRepo inside
  let v ← version ver
  if meetsMin v then .ok v else .err

/-- Root (vcs.go 142-157); `out` is what `git rev-parse --git-dir` prints. -/
def root (out : Option Str) : Out Str :=
  match out with
  | none => .panic
  | some b =>
    match splitStr (lit ".git") b with
    | [a, _] => .ok a
    | _ => .panic

/-! ### url.Parse -/

def isLetter (c : UInt8) : Bool := (decide (97 ≤ c) && decide (c ≤ 122)) || (decide (65 ≤ c) && decide (c ≤ 90))

/-- getScheme of net/url: the scheme and the rest. `seen` is what has been read of the scheme; without a scheme the rest is the
whole. -/
def getScheme (whole : Str) : Str → Str → Option (Str × Str)
  | _, [] => some ([], whole)
  | seen, c :: s =>
    if isLetter c then getScheme whole (seen ++ [c]) s
    else if isDigit c || c == 43 || c == 45 || c == 46 then
      if seen = [] then some ([], whole) else getScheme whole (seen ++ [c]) s
    else if c = 58 then
      if seen = [] then none else some (seen, s)
    else some ([], whole)

/-- What may be in user information: validUserinfo of net/url. -/
def userByte (c : UInt8) : Bool :=
  isLetter c || isDigit c || decide (c ∈ lit "-._:~!$&'()*+,;=%@")

/-- What unescape of net/url lets pass in a host. -/
def hostByte (c : UInt8) : Bool :=
  isLetter c || isDigit c || decide (128 ≤ c) || decide (c ∈ lit "-_.~!$&'()*+,;=:<>\"[]")

/-- `s[:i], s[i+1:]` for the last place of a byte. -/
def cutLast (c : UInt8) (s : Str) : Option (Str × Str) :=
  if c ∈ s then
    some ((s.reverse.dropWhile (· ≠ c)).tail.reverse, (s.reverse.takeWhile (· ≠ c)).reverse)
  else none

/-- parseHost of net/url for a host that does not start with `[`. -/
def parseHost (s : Str) : Option Str :=
  match cutLast 58 s with
  | some (_, port) => if port.all isDigit && s.all hostByte then some s else none
  | none => if s.all hostByte then some s else none

/-- parseAuthority of net/url: the host with its port. -/
def parseAuthority (s : Str) : Option Str :=
  match cutLast 64 s with
  | none => parseHost s
  | some (user, host) =>
    match parseHost host with
    | none => none
    | some h => if user.all userByte then some h else none

/-- url.Parse: the host and the path. -/
def urlParse (raw : Str) : Option (Str × Str) :=
  let s := raw.takeWhile (· ≠ 35)
  if s.any (fun c => decide (c < 32) || c == 127) then none
  else if s = lit "*" then some ([], s)
  else
    match getScheme s [] s with
    | none => none
    | some (scheme, rest) =>
      let rest := rest.takeWhile (· ≠ 63)
      if ¬ Str.hasPrefix (lit "/") rest then
        if scheme ≠ [] then some ([], [])
        else if 58 ∈ rest.takeWhile (· ≠ 47) then none
        else some ([], rest)
      else if (scheme ≠ [] ∨ ¬ Str.hasPrefix (lit "///") rest) ∧ Str.hasPrefix (lit "//") rest = true then
        let a := rest.drop 2
        match parseAuthority (a.takeWhile (· ≠ 47)) with
        | none => none
        | some h => some (h, a.dropWhile (· ≠ 47))
      else some ([], rest)

/-- Origin (vcs.go 160-173); `out` is what `git config --get remote.origin.url` prints. -/
def origin (out : Option Str) : Out Str :=
  match out with
  | none => .panic
  | some b =>
    match urlParse (trimSpace b) with
    | none => .panic
    | some (host, path) => .ok (host ++ trimSuffix (lit ".git") path)

end Claw.Vcs
