/-!
# Options lines

`/repo/clawc/internal/idl/options.go`, and `ParseOptions` and `Validate` of `/repo/clawc/internal/idl/idl.go`.

A line is the list of its runes after the word `options` and the spaces behind it. Which runes are spaces and which are
letters or numbers is a parameter (`Uni`), so that what is proved holds for every version of the Unicode tables.
-/

namespace Claw.Options

/-- A rune, as its code point. -/
abbrev Rune := Nat

abbrev lbrack : Rune := 91
abbrev rbrack : Rune := 93
abbrev lparen : Rune := 40
abbrev rparen : Rune := 41
abbrev comma : Rune := 44
abbrev quote : Rune := 34
abbrev slash : Rune := 47

/-- `unicode.IsSpace`, and `unicode.IsLetter` or `unicode.IsNumber`. -/
structure Uni where
  space : Rune → Bool
  letter : Rune → Bool

/-- idl.go 25-31 `Option`. -/
structure Opt where
  name : List Rune
  args : List (List Rune)
  deriving DecidableEq, Repr

/-- The variables of parseArgs. -/
structure ASt where
  args : List (List Rune) := []
  buff : List Rune := []
  inQuote : Bool := false
  last : Rune := 0
  lastNS : Rune := 0
  foundRight : Bool := false
  deriving DecidableEq, Repr

/-- options.go 212-217, the deferred function. -/
def ASt.note (u : Uni) (s : ASt) (r : Rune) : ASt :=
  { s with
    last := r
    lastNS := if u.space r then s.lastNS else r }

/-- options.go 219-254: one rune inside the parentheses; `none` is an error. -/
def ASt.step (u : Uni) (s : ASt) (r : Rune) : Option ASt :=
  if u.space r then some ({ s with buff := if s.inQuote then s.buff ++ [r] else s.buff }.note u r)
  else if r = comma then
    if s.inQuote then some ({ s with buff := s.buff ++ [r] }.note u r)
    else if s.args = [] then none
    else if s.lastNS ≠ quote then none
    else some (s.note u r)
  else if r = quote then
    if s.inQuote then
      some ({ s with
        args := s.args ++ [s.buff]
        buff := []
        inQuote := false }.note u r)
    else some ({ s with inQuote := true }.note u r)
  else if u.letter r then some ({ s with buff := s.buff ++ [r] }.note u r)
  else if r = rparen then
    if s.inQuote then none else some ({ s with foundRight := true }.note u r)
  else none

/-- options.go 201-265 parseArgs: the arguments, `last`, `lastNotSpace` and what is left of the line. A line that ends with
the closing parenthesis is an error. -/
def parseArgs (u : Uni) : List Rune → ASt → Option (List (List Rune) × Rune × Rune × List Rune)
  | [], _ => none
  | r :: rest, s =>
    if s.foundRight then some (s.args, s.last, s.lastNS, r :: rest)
    else match s.step u r with
      | none => none
      | some s' => parseArgs u rest s'

/-- The variables of parseOptions; `read` says that a rune was read. -/
structure OSt where
  opts : List Opt := []
  buff : List Rune := []
  foundLeft : Bool := false
  foundRight : Bool := false
  read : Nat := 0
  last : Rune := 0
  lastNS : Rune := 0
  deriving DecidableEq, Repr

/-- options.go 103-112, the deferred function. -/
def OSt.note (u : Uni) (s : OSt) (r : Rune) : OSt :=
  { s with
    read := s.read + 1
    last := r
    lastNS := if u.space r then s.lastNS else r }

/-- options.go 95-173: one turn of the loop on rune `r`, with `rest` behind it. -/
def OSt.step (u : Uni) (s : OSt) (r : Rune) (rest : List Rune) : Option (OSt × List Rune) :=
  if s.read = 1 && !s.foundLeft then none
  else if r = lbrack then
    if s.foundRight then none else some ({ s with foundLeft := true }.note u r, rest)
  else if r = rbrack then
    if !s.foundLeft then none
    else if s.opts = [] then none
    else some ({ s with foundRight := true }.note u r, rest)
  else if r = lparen then
    if s.buff = [] then none
    else match parseArgs u rest {} with
      | none => none
      | some (args, last, lastNS, rest') =>
        some ({ s with
          opts := s.opts ++ [⟨s.buff, args⟩]
          buff := []
          read := s.read + 1
          last := last
          lastNS := lastNS }, rest')
  else if r = comma then
    if s.opts = [] then none
    else if s.lastNS ≠ rparen then none
    else some (s.note u r, rest)
  else if u.space r then
    if u.space s.last then some (s.note u r, rest)
    else if s.last = comma ∨ s.last = rparen then some (s.note u r, rest)
    else if s.lastNS = lbrack then some (s.note u r, rest)
    else none
  else if u.letter r then some ({ s with buff := s.buff ++ [r] }.note u r, rest)
  else none

/-- options.go 181-198: only spaces or a comment may follow. -/
def tailOk (u : Uni) : List Rune → Bool
  | [] => true
  | r :: rest =>
    if u.space r then tailOk u rest
    else if r = slash then
      match rest with
      | [] => false
      | r' :: _ => r' = slash
    else false

/-- options.go 90-199: the loop, with a bound on its turns that is never reached (`Steps.loop` in Props/Options), and what follows it. -/
def loop (u : Uni) : Nat → List Rune → OSt → Option (List Opt)
  | _, [], s => if s.foundRight then some s.opts else none
  | 0, _ :: _, _ => none
  | fuel + 1, r :: rest, s =>
    if s.foundRight then if tailOk u (r :: rest) then some s.opts else none
    else match s.step u r rest with
      | none => none
      | some (s', rest') => loop u fuel rest' s'

/-- options.go 35-69 parse and 71-199 parseOptions, on what follows the word `options` and spaces; the first rune must be
an opening bracket. -/
def parse (u : Uni) (line : List Rune) : Option (List Opt) :=
  match line with
  | [] => none
  | r :: _ => if r ≠ lbrack then none else loop u (line.length + 1) line {}

/-- The name of the only file option (options.go 14-16). -/
def isSetName : List Rune := "IsSet".toList.map Char.toNat

/-- idl.go 393-407 ParseOptions: no option twice. -/
def noDup : List Opt → Bool
  | [] => true
  | o :: os => os.all (fun p => p.name ≠ o.name) && noDup os

/-- idl.go 95-103 Validate and options.go 18-23 valIsSet. -/
def known (o : Opt) : Bool := o.name = isSetName && o.args.isEmpty

/-- A file with this options line, as far as it goes: `none` is an error, otherwise whether the option IsSet is on. -/
def fileOptions (u : Uni) (line : List Rune) : Option Bool :=
  match parse u line with
  | none => none
  | some os => if noDup os && os.all known then some (os.any fun o => o.name = isSetName) else none

/-! ### The lines at the head of a file -/

/-- A line or block that FindNext understands (idl.go 298-371). -/
inductive Item where
  | version (n : Int)
  | options (os : List Opt)
  | imports
  | decl
  deriving DecidableEq, Repr

/-- What File keeps of them (idl.go 70-76 New). -/
structure Head where
  version : Int := -1
  options : List Opt := []
  imports : Bool := false
  decls : Bool := false
  deriving DecidableEq, Repr

/-- idl.go 298-371 FindNext with ParseVersion (374-391) and ParseOptions (393-407). -/
def Head.step (h : Head) : Item → Option Head
  | .version n => if h.version ≥ 0 then none else some { h with version := n }
  | .options os =>
    if h.options ≠ [] then none
    else if h.decls then none
    else if noDup os then some { h with options := os } else none
  | .imports => if h.imports then none else if h.decls then none else some { h with imports := true }
  | .decl => some { h with decls := true }

def Head.run (h : Head) : List Item → Option Head
  | [] => some h
  | i :: is => match h.step i with
    | none => none
    | some h' => h'.run is

/-- idl.go 79-106 Validate: the version, if the file is valid. -/
def Head.validate (h : Head) : Option Int :=
  if (h.version = -1 ∨ h.version = 0) ∧ h.options.all known then some 0 else none

end Claw.Options
