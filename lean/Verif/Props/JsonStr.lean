import Verif.Lemmas.JsonStr

/-!
# C75: strings in JSON
-/

namespace Claw.Json

/-- C75. A string written as JSON is read back, by the rules of RFC 8259, as the string in which every byte that belongs to
no character is replaced by U+FFFD; the reader stops exactly at its end, whatever follows. The text has no control
characters and is UTF-8. For every string of bytes. -/
theorem C75_string_read_back (s rest : Bytes) :
    ∃ t, parseString (escapeString s ++ rest) = some (t, rest) ∧ Repair s t ∧
      Utf8 (escapeString s) ∧ ∀ c ∈ escapeString s, 0x20 ≤ c.toNat :=
  ⟨_, parse_escapeString s rest, repair s, escapeString_chars s⟩

/-- C75: a string that is UTF-8 is read back unchanged. -/
theorem C75_utf8_unchanged (s rest : Bytes) (h : Utf8 s) :
    parseString (escapeString s ++ rest) = some (s, rest) := by
  rw [parse_escapeString, repaired_utf8 h]

/-- C75: two strings that are UTF-8 are written differently. -/
theorem C75_injective (s t : Bytes) (hs : Utf8 s) (ht : Utf8 t) (h : escapeString s = escapeString t) : s = t := by
  have h1 := C75_utf8_unchanged s [] hs
  rw [h, C75_utf8_unchanged t [] ht] at h1
  simpa using h1.symm

-- `é"` and a line feed: a quote, a control character, two bytes for a character
example : Utf8 [0xC3, 0xA9, 0x22, 10] := ⟨[0xE9, 0x22, 10], by simp [Scalar], by decide⟩

example : escapeString [0xC3, 0xA9, 0x22, 10] = [0x22, 0xC3, 0xA9, 0x5C, 0x22, 0x5C, 0x6E, 0x22] := by decide

-- a byte that belongs to no character
example : parseString (escapeString [0x41, 0xFF] ++ [0x2C]) = some ([0x41, 0xEF, 0xBF, 0xBD], [0x2C]) := by
  rw [parse_escapeString]; decide

end Claw.Json
