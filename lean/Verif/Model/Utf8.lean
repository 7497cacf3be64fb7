import Verif.Model.GoStr

/-!
# Strings as Go ranges over them

The package `unicode/utf8` of the Go standard library, and the escaping of strings of
`/repo/languages/go/clawjson/clawjson.go`.
-/

namespace Claw.Json

/-- utf8.AppendRune. -/
def encodeRune (r : Nat) : Bytes :=
  if r < 0x80 then [r.toUInt8]
  else if r < 0x800 then [(0xC0 + r / 64).toUInt8, (0x80 + r % 64).toUInt8]
  else if (0xD800 ≤ r ∧ r ≤ 0xDFFF) ∨ 0x10FFFF < r then [0xEF, 0xBF, 0xBD]
  else if r < 0x10000 then
    [(0xE0 + r / 4096).toUInt8, (0x80 + r / 64 % 64).toUInt8, (0x80 + r % 64).toUInt8]
  else [(0xF0 + r / 262144).toUInt8, (0x80 + r / 4096 % 64).toUInt8, (0x80 + r / 64 % 64).toUInt8,
    (0x80 + r % 64).toUInt8]

/-- A byte in the given range. -/
def within (lo hi : Nat) (b : UInt8) : Bool := decide (lo ≤ b.toNat ∧ b.toNat ≤ hi)

/-- utf8.DecodeRuneInString: the rune and its width.  An invalid byte is one U+FFFD. -/
def decodeRune : Bytes → Nat × Nat
  | [] => (0xFFFD, 0)
  | a :: r =>
    if a.toNat < 0x80 then (a.toNat, 1)
    else if within 0xC2 0xDF a then
      match r with
      | b :: _ => if within 0x80 0xBF b then ((a.toNat - 0xC0) * 64 + (b.toNat - 0x80), 2) else (0xFFFD, 1)
      | _ => (0xFFFD, 1)
    else if within 0xE0 0xEF a then
      match r with
      | b :: c :: _ =>
        if within (if a.toNat = 0xE0 then 0xA0 else 0x80) (if a.toNat = 0xED then 0x9F else 0xBF) b &&
            within 0x80 0xBF c then
          ((a.toNat - 0xE0) * 4096 + (b.toNat - 0x80) * 64 + (c.toNat - 0x80), 3)
        else (0xFFFD, 1)
      | _ => (0xFFFD, 1)
    else if within 0xF0 0xF4 a then
      match r with
      | b :: c :: d :: _ =>
        if within (if a.toNat = 0xF0 then 0x90 else 0x80) (if a.toNat = 0xF4 then 0x8F else 0xBF) b &&
            within 0x80 0xBF c && within 0x80 0xBF d then
          ((a.toNat - 0xF0) * 262144 + (b.toNat - 0x80) * 4096 + (c.toNat - 0x80) * 64 + (d.toNat - 0x80), 4)
        else (0xFFFD, 1)
      | _ => (0xFFFD, 1)
    else (0xFFFD, 1)

/-- `for _, r := range s`: the runes of a string.  The number bounds the turns. -/
def runesN : Nat → Bytes → List Nat
  | 0, _ => []
  | _ + 1, [] => []
  | n + 1, s => (decodeRune s).1 :: runesN n (s.drop (decodeRune s).2)

/-- `for _, r := range s`. -/
def runes (s : Bytes) : List Nat := runesN s.length s

/-- `hexDigits` (clawjson.go 552). -/
def hexDigit (n : Nat) : UInt8 := if n < 10 then (48 + n).toUInt8 else (87 + n).toUInt8

/-- One turn of the slow path of appendEscapedString (clawjson.go 523-545). -/
def escapeRune (r : Nat) : Bytes :=
  if r = 0x22 then [0x5C, 0x22]
  else if r = 0x5C then [0x5C, 0x5C]
  else if r = 10 then [0x5C, 0x6E]
  else if r = 13 then [0x5C, 0x72]
  else if r = 9 then [0x5C, 0x74]
  else if r < 0x20 then [0x5C, 0x75, 0x30, 0x30, hexDigit (r / 16), hexDigit (r % 16)]
  else if 0x10FFFF < r then [0x5C, 0x75, 0x66, 0x66, 0x66, 0x64]
  else encodeRune r

/-- The bytes that need the slow path (clawjson.go 511-516). -/
def needsEscape (c : UInt8) : Bool := decide (c < 0x20) || c == 0x22 || c == 0x5C || decide (0x7e < c)

/-- appendEscapedString (clawjson.go 504-550), on an empty destination. -/
def escapeString (s : Bytes) : Bytes :=
  if s.any needsEscape then 0x22 :: (runes s).flatMap escapeRune ++ [0x22]
  else 0x22 :: s ++ [0x22]

end Claw.Json
