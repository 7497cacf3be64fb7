import Verif.Model.Utf8

/-!
# Strings in JSON text

RFC 8259, section 7, and the encoding of characters as UTF-8.
-/

namespace Claw.Json

/-- A character: a code point that is not a surrogate. -/
def Scalar (r : Nat) : Prop := r < 0xD800 ∨ (0xDFFF < r ∧ r ≤ 0x10FFFF)

/-- Valid UTF-8: the encoding of a sequence of characters. -/
def Utf8 (s : Bytes) : Prop := ∃ cs : List Nat, (∀ c ∈ cs, Scalar c) ∧ s = cs.flatMap encodeRune

/-- The value of a hexadecimal digit. -/
def hexVal (c : UInt8) : Option Nat :=
  if 48 ≤ c.toNat ∧ c.toNat ≤ 57 then some (c.toNat - 48)
  else if 97 ≤ c.toNat ∧ c.toNat ≤ 102 then some (c.toNat - 87)
  else if 65 ≤ c.toNat ∧ c.toNat ≤ 70 then some (c.toNat - 55)
  else none

/-- Four hexadecimal digits. -/
def hex4 (a b c d : UInt8) : Option Nat := do
  let a ← hexVal a
  let b ← hexVal b
  let c ← hexVal c
  let d ← hexVal d
  pure (a * 4096 + b * 256 + c * 16 + d)

/-- The character that a backslash and a letter stand for. -/
def simpleEscape (e : UInt8) : Option UInt8 :=
  if e = 0x22 then some 0x22          -- "
  else if e = 0x5C then some 0x5C     -- \
  else if e = 0x2F then some 0x2F     -- /
  else if e = 0x62 then some 8        -- b
  else if e = 0x66 then some 12       -- f
  else if e = 0x6E then some 10       -- n
  else if e = 0x72 then some 13       -- r
  else if e = 0x74 then some 9        -- t
  else none

/-- A JSON string after its opening quote: its value and the text after its closing quote.  Pairs of
escaped surrogates are left out (taken for an error). -/
def parseChars : Bytes → Option (Bytes × Bytes)
  | [] => none
  | c :: r =>
    if c = 0x22 then some ([], r)
    else if c = 0x5C then
      match r with
      | [] => none
      | e :: r =>
        if e = 0x75 then
          match r with
          | a :: b :: c :: d :: r =>
            match hex4 a b c d with
            | none => none
            | some n =>
              if 0xD800 ≤ n ∧ n ≤ 0xDFFF then none
              else (parseChars r).map fun p => (encodeRune n ++ p.1, p.2)
          | _ => none
        else match simpleEscape e with
          | none => none
          | some x => (parseChars r).map fun p => (x :: p.1, p.2)
    else if c < 0x20 then none
    else (parseChars r).map fun p => (c :: p.1, p.2)

/-- A JSON string. -/
def parseString : Bytes → Option (Bytes × Bytes)
  | c :: r => if c = 0x22 then parseChars r else none
  | [] => none

/-- `t` is `s` with every byte that does not belong to a character replaced by U+FFFD. -/
inductive Repair : Bytes → Bytes → Prop where
  | nil : Repair [] []
  | char {c s t} : Scalar c → Repair s t → Repair (encodeRune c ++ s) (encodeRune c ++ t)
  | bad {b s t} : (∀ c, Scalar c → ¬ encodeRune c <+: b :: s) → Repair s t →
      Repair (b :: s) (encodeRune 0xFFFD ++ t)

/-- A string with everything that is not UTF-8 replaced by U+FFFD, byte by byte: see `Repair`. -/
def repaired (s : Bytes) : Bytes := (runes s).flatMap encodeRune

end Claw.Json
