import Verif.Model.Options

/-!
# What an options line means

The text of an options line with any layout, and the options it stands for.
-/

namespace Claw.Options

/-- What is needed of the Unicode tables: no rune is both a space and a letter or number, the marks are neither,
and the letters of ASCII are letters. -/
structure Uni.Ok (u : Uni) : Prop where
  disjoint : ∀ r, u.space r = true → u.letter r = false
  marks : ∀ r ∈ [lbrack, rbrack, lparen, rparen, comma, quote, slash], u.space r = false ∧ u.letter r = false
  ascii : ∀ r, (65 ≤ r ∧ r ≤ 90) ∨ (97 ≤ r ∧ r ≤ 122) → u.letter r = true

/-- Only spaces. -/
def Spaces (u : Uni) (l : List Rune) : Prop := ∀ r ∈ l, u.space r = true

/-- Only letters and numbers. -/
def Letters (u : Uni) (l : List Rune) : Prop := ∀ r ∈ l, u.letter r = true

/-- What may stand between quotes: letters, numbers, spaces and commas. -/
def ArgText (u : Uni) (l : List Rune) : Prop := ∀ r ∈ l, u.letter r = true ∨ u.space r = true ∨ r = comma

/-- An argument with the spaces around it. -/
structure ArgL where
  pre : List Rune
  text : List Rune
  post : List Rune

/-- An option with the spaces around it; `inner` are the spaces between parentheses with no arguments. -/
structure OptL where
  pre : List Rune
  name : List Rune
  inner : List Rune
  args : List ArgL
  post : List Rune

/-- Texts with commas between them. -/
def commas : List (List Rune) → List Rune
  | [] => []
  | [x] => x
  | x :: y :: xs => x ++ comma :: commas (y :: xs)

def ArgL.text' (a : ArgL) : List Rune := a.pre ++ quote :: (a.text ++ quote :: a.post)

def OptL.inside (o : OptL) : List Rune := if o.args = [] then o.inner else commas (o.args.map ArgL.text')

def OptL.text (o : OptL) : List Rune := o.pre ++ (o.name ++ lparen :: (o.inside ++ rparen :: o.post))

/-- An options line: the options, and what follows the closing bracket. -/
def lineText (os : List OptL) (tail : List Rune) : List Rune := lbrack :: (commas (os.map OptL.text) ++ rbrack :: tail)

def ArgL.Ok (u : Uni) (a : ArgL) : Prop := Spaces u a.pre ∧ ArgText u a.text ∧ Spaces u a.post

def OptL.Ok (u : Uni) (o : OptL) : Prop :=
  Spaces u o.pre ∧ o.name ≠ [] ∧ Letters u o.name ∧ Spaces u o.inner ∧ (∀ a ∈ o.args, a.Ok u) ∧ Spaces u o.post

/-- Spaces, or spaces and a comment. -/
def TailOk (u : Uni) (tail : List Rune) : Prop :=
  Spaces u tail ∨ ∃ sp c, tail = sp ++ slash :: slash :: c ∧ Spaces u sp

/-- The option a text stands for. -/
def OptL.opt (o : OptL) : Opt := ⟨o.name, o.args.map ArgL.text⟩

/-- The line or block may follow the lines and blocks before it: one version, one options line and one import block at most, the
latter two before the first declaration; no option twice. -/
def ItemOk (before : List Item) : Item → Prop
  | .version _ => ∀ n, .version n ∉ before
  | .options os => noDup os = true ∧ (∀ os', .options os' ∉ before) ∧ .decl ∉ before
  | .imports => .imports ∉ before ∧ .decl ∉ before
  | .decl => True

/-- What the head of a file should be. -/
def HeadOk (is : List Item) : Prop := ∀ before x after, is = before ++ x :: after → ItemOk before x

/-- What a line can say: an options line has options (`C125_sound_partial`), a version is not negative. -/
def Item.Proper : Item → Prop
  | .version n => 0 ≤ n
  | .options os => os ≠ []
  | _ => True

end Claw.Options
