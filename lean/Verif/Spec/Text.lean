import Verif.Model.Text
import Verif.Spec.Json

/-!
# What comes back of a struct from its text
-/

namespace Claw.Text

open Claw.Idl (FT Out)
open Claw.Tok
open Claw.Json (Scalar encodeRune runes repaired special base64 Utf8)

/-- The UTF-8 encoding of characters. -/
def enc (rs : List Nat) : Bytes := rs.flatMap encodeRune

/-- White space that is written as it is: control characters are escaped. -/
def wide (r : Nat) : Bool := isSpace r && decide (0x20 ≤ r)

/-- The characters of a string before its first white space. -/
def firstPart (s : Bytes) : List Nat := (runes s).takeWhile fun r => !wide r

/-- Without a comma at its end. -/
def noComma (p : List Nat) : List Nat := if p.getLast? = some 44 then p.dropLast else p

/-- White space follows a quote, or a quote and a comma, and it is the first white space of the string. -/
def quoteSpace (s : Bytes) : Bool :=
  decide ((firstPart s).length < (runes s).length) && (noComma (firstPart s)).getLast? == some 0x22

/-- What comes back of a string. -/
def strBack (s : Bytes) : Bytes :=
  if quoteSpace s then enc (noComma (firstPart s)).dropLast ++ [0x5C] else repaired s

/-- What comes back of a scalar. -/
def backNum (x : Ext) (o : Opts) (t : FT) (e : Option EnumT) (d : UInt64) : UInt64 :=
  match e with
  | some e => if o.useNums && (t == .uint8 || t == .uint16) then d else if nameOf e d = [] then 0 else valueOf e (nameOf e d)
  | none =>
    match t with
    | .bool => 0
    | .float32 | .float64 =>
      if special t d then 0
      else if wholeFloat t d then
        norm t (Int64.ofInt ((floatParts t d).1.tdiv (floatParts t d).2)).toUInt64
      else norm t ((x.parseFloat (x.floatText t d)).getD 0)
    | _ => d

/-- A scalar that can be read at all. -/
def numReadable (t : FT) (e : Option EnumT) (d : UInt64) : Bool :=
  match e with
  | some _ => true
  | none => !(t == .uint64 && decide (2 ^ 63 ≤ d.toNat))

mutual

/-- What comes back of a value. -/
def back (x : Ext) (o : Opts) (env : Env) (ty : Ty) : Val → Val
  | .num d => match ty with
    | .num t e => .num (backNum x o t e d)
    | _ => .num d
  | .bin b => match ty with
    | .str => .bin (strBack b)
    | _ => .bin (if o.hexBytes then b else base64 b)
  | .obj fs => match ty with
    | .struct s => .obj (backFields x o env (env s) fs)
    | _ => .obj fs
  | v => v

/-- What comes back of the fields of a struct. -/
def backFields (x : Ext) (o : Opts) (env : Env) : List Decl → List Val → List Val
  | d :: ds, v :: vs => back x o env d.ty v :: backFields x o env ds vs
  | _, _ => []

end

mutual

/-- The text of a value can be read: scalars, strings, bytes and structs of them. -/
def readable (env : Env) (ty : Ty) : Val → Bool
  | .num d => match ty with
    | .num t e => numReadable t e d
    | _ => false
  | .bin _ => true
  | .obj fs => match ty with
    | .struct s => readables env (env s) fs
    | _ => false
  | _ => false

/-- The text of all fields can be read. -/
def readables (env : Env) : List Decl → List Val → Bool
  | d :: ds, v :: vs => readable env d.ty v && readables env ds vs
  | _, _ => true

end

/-- A key without white space. -/
def plainKey : Key → Bool
  | .str b => (runes b).all fun r => !wide r
  | .num _ => true

mutual

/-- The first key of every map has no white space. -/
def plainKeys : Val → Bool
  | .map (k :: _) _ => plainKey k
  | .obj fs => plainAll fs
  | _ => true

/-- The first key of every map has no white space. -/
def plainAll : List Val → Bool
  | v :: vs => plainKeys v && plainAll vs
  | [] => true

end

/-- A letter, a digit or an underscore. -/
def identRune (r : Nat) : Prop :=
  Scalar r ∧ isSpace r = false ∧
    (0x80 ≤ r ∨ (65 ≤ r ∧ r ≤ 90) ∨ (97 ≤ r ∧ r ≤ 122) ∨ (48 ≤ r ∧ r ≤ 57) ∨ r = 95)

/-- An identifier. -/
def Ident (n : Str) : Prop :=
  ∃ r rs, n = enc (r :: rs) ∧ (∀ c ∈ r :: rs, identRune c) ∧ ¬ (48 ≤ r ∧ r ≤ 57)

/-- The names of an enum. -/
def NamedEnum (e : EnumT) : Prop := ∀ d, nameOf e d = [] ∨ Ident (nameOf e d)

/-- Fields and enumerators have identifiers for names. -/
def NamedAll (env : Env) : Prop :=
  ∀ s, ∀ d ∈ env s, Ident d.name ∧ ∀ t e, (d.ty = .num t (some e) ∨ d.ty = .listNum t (some e)) → NamedEnum e

/-- A character of the text of a float. -/
def floatByte (c : UInt8) : Prop := (48 ≤ c ∧ c ≤ 57) ∨ c = 43 ∨ c = 45 ∨ c = 46 ∨ c = 101

/-- The text of a float that is not a whole number below 10^6. -/
def FloatForm (w : Bytes) : Prop :=
  (∀ c ∈ w, floatByte c) ∧ (46 ∈ w ∨ 101 ∈ w) ∧
    ∃ c r, w = c :: r ∧ ((48 ≤ c ∧ c ≤ 57) ∨ (c = 45 ∧ ∃ c' r', r = c' :: r' ∧ 48 ≤ c' ∧ c' ≤ 57))

/-- What `strconv` documents of floats: the text has this form, can be parsed, and gives a float64 back. -/
structure FloatsOk (x : Ext) : Prop where
  form : ∀ t d, special t d = false → wholeFloat t d = false → FloatForm (x.floatText t d)
  parsed : ∀ t d, special t d = false → wholeFloat t d = false → ∃ b, x.parseFloat (x.floatText t d) = some b
  same : ∀ d, special .float64 d = false → wholeFloat .float64 d = false →
    x.parseFloat (x.floatText .float64 d) = some d

/-- The indentation is blanks and tabs. -/
def Blank (o : Opts) : Prop := ∀ c ∈ o.indent, c = 32 ∨ c = 9

/-- A scalar that comes back as it was. -/
def KeptNum (o : Opts) (t : FT) (e : Option EnumT) (d : UInt64) : Prop :=
  match e with
  | some e => (o.useNums = true ∧ (t = .uint8 ∨ t = .uint16)) ∨
      (nameOf e d ≠ [] ∧ valueOf e (nameOf e d) = d) ∨ (nameOf e d = [] ∧ d = 0)
  | none => match t with
    | .bool | .float32 => d = 0
    | .float64 => d = 0 ∨ (special .float64 d = false ∧ wholeFloat .float64 d = false)
    | .uint64 => d.toNat < 2 ^ 63
    | _ => True

mutual

/-- A value that comes back as it was. -/
def Kept (o : Opts) (env : Env) (ty : Ty) : Val → Prop
  | .num d => match ty with
    | .num t e => KeptNum o t e d
    | _ => False
  | .bin b => match ty with
    | .str => Utf8 b ∧ quoteSpace b = false
    | _ => o.hexBytes = true ∨ b = []
  | .obj fs => match ty with
    | .struct s => KeptFields o env (env s) fs
    | _ => False
  | _ => False

/-- The fields of a struct. -/
def KeptFields (o : Opts) (env : Env) : List Decl → List Val → Prop
  | d :: ds, v :: vs => Kept o env d.ty v ∧ KeptFields o env ds vs
  | _, _ => True

end

/-- Blanks and tabs. -/
def BlankLine (l : Bytes) : Prop := ∀ c ∈ l, c = 32 ∨ c = 9

/-- A blank line, a comment line, or a comment over any number of lines with nothing after it. -/
inductive Filler : Bytes → Prop
  | blank {l : Bytes} : BlankLine l → Filler (l ++ [10])
  | line {l c : Bytes} : BlankLine l → 10 ∉ c → Filler (l ++ [47, 47] ++ c ++ [10])
  | block {l c r : Bytes} : BlankLine l → (∀ a b, c ≠ a ++ [42, 47] ++ b) → (∀ b, c ≠ 47 :: b) → BlankLine r →
      Filler (l ++ [47, 42] ++ c ++ [42, 47] ++ r ++ [10])

/-- Without backquotes and asterisks there are no raw strings and no comments over lines. -/
def Plain (s : Bytes) : Prop := ∀ c ∈ s, c ≠ 96 ∧ c ≠ 42

/-! ### Hand-written text -/

/-- Words, each after a blank. -/
def row (ws : List Bytes) : Bytes := ws.flatMap (32 :: ·)

/-- Lines of words, each line with its newline. -/
def rowsText (rows : List (List Bytes)) : Bytes := rows.flatMap fun r => row r ++ [10]

/-- A list of the field `x`, with its items on any lines and a blank before each of them and before the closing bracket: the
first rows end in a newline, `last` does not. -/
def listText (rows : List (List Bytes)) (last : List Bytes) : Bytes :=
  lit "x: [" ++ rowsText rows ++ row last ++ lit " ],\n"

/-- An item, with or without a comma. -/
def withComma (w : Bytes) (comma : Bool) : Bytes := if comma then w ++ [44] else w

/-- An entry of a map on its line, with blanks around the colon. -/
def entryText (k w : Bytes) : Bytes := quoted k ++ lit " : " ++ w ++ lit ",\n"

/-- A map of the field `x`. -/
def mapText (es : List (Bytes × Bytes)) : Bytes := lit "x: @map {\n" ++ (es.flatMap fun e => entryText e.1 e.2) ++ lit "},\n"

end Claw.Text
