import Verif.Spec.Text
import Verif.Lemmas.JsonStr

/-!
# Strings in text: escaping, words and lines
-/

namespace Claw.Text

open Claw.Idl (FT Out)
open Claw.Tok
open Claw.Json

/-! ### Escaping -/

theorem unescape_plain {c : UInt8} (h : c ≠ 0x5C) (r : Bytes) : unescape (c :: r) = (unescape r).map (c :: ·) := by
  rw [unescape.eq_def]; simp only [h, if_false]

theorem unescape_high : ∀ (l : Bytes), (∀ c ∈ l, c ≠ 0x5C) → ∀ r, unescape (l ++ r) = (unescape r).map (l ++ ·) := by
  intro l
  induction l with
  | nil => intro _ r; cases h : unescape r <;> simp [h]
  | cons c l ih =>
    intro h r
    rw [List.cons_append, unescape_plain (h c (by simp)), ih (fun c hc => h c (by simp [hc]))]
    cases unescape r <;> simp

theorem encode_not_backslash {r : Nat} (h : r ≠ 0x5C) : ∀ c ∈ encodeRune r, c ≠ 0x5C := by
  by_cases h1 : r < 0x80
  · unfold encodeRune
    rw [if_pos h1]
    intro c hc
    simp only [List.mem_singleton] at hc
    subst hc
    intro h2
    have := congrArg UInt8.toNat h2
    rw [toUInt8_toNat (by omega)] at this
    exact h this
  · intro c hc h2
    have := encode_high (r := r) (by omega) c hc
    subst h2
    simp at this

theorem unescape_escapeRune {r : Nat} (h : Scalar r) (t : Bytes) :
    unescape (escapeRune r ++ t) = (unescape t).map (encodeRune r ++ ·) := by
  unfold escapeRune
  split
  · rename_i h; subst h
    simp [unescape.eq_def (_ :: _), encodeRune]
  · split
    · rename_i h; subst h
      simp [unescape.eq_def (_ :: _), encodeRune]
    · split
      · rename_i h; subst h
        simp [unescape.eq_def (_ :: _), encodeRune]
      · split
        · rename_i h; subst h
          simp [unescape.eq_def (_ :: _), encodeRune]
        · split
          · rename_i h; subst h
            simp [unescape.eq_def (_ :: _), encodeRune]
          · split
            · rename_i h1
              obtain ⟨a, b, ha, hb, hh, _⟩ := parse_control r h1
              rw [ha, hb, List.cons_append, List.cons_append, List.cons_append, List.cons_append, unescape.eq_def]
              simp only [if_true]
              rw [if_neg (by decide), if_neg (by decide), if_neg (by decide), if_neg (by decide), if_neg (by decide)]
              simp only [List.cons_append, List.nil_append, hh]
            · split
              · unfold Scalar at h; omega
              · exact unescape_high _ (encode_not_backslash (by assumption)) t

/-- Escaping is undone. -/
theorem unescape_escape : ∀ (rs : List Nat), (∀ r ∈ rs, Scalar r) → ∀ t,
    unescape (rs.flatMap escapeRune ++ t) = (unescape t).map (enc rs ++ ·) := by
  intro rs
  induction rs with
  | nil => intro _ t; cases h : unescape t <;> simp [h, enc]
  | cons r rs ih =>
    intro h t
    rw [List.flatMap_cons, List.append_assoc, unescape_escapeRune (h r (by simp)), ih (fun r hr => h r (by simp [hr]))]
    cases unescape t <;> simp [enc]

theorem endsWith_append (c : UInt8) (s : Bytes) : endsWith c (s ++ [c]) = true := by simp [endsWith]

theorem endsWith_append_ne {c d : UInt8} (h : d ≠ c) (s : Bytes) : endsWith c (s ++ [d]) = false := by simp [endsWith, h]

theorem trimLast_append (c : UInt8) (s : Bytes) : trimLast c (s ++ [c]) = s := by
  unfold trimLast
  rw [if_pos (endsWith_append c s)]
  simp

theorem trimLast_other {c : UInt8} {s : Bytes} (h : endsWith c s = false) : trimLast c s = s := by
  unfold trimLast
  rw [h]
  rfl

/-- A quoted string is read back. -/
theorem unquote_quoted (s : Bytes) : unquote (quoted s) = some (repaired s) := by
  unfold quoted
  simp only [List.cons_append, unquote, endsWith_append, if_true, List.dropLast_concat]
  have := unescape_escape (runes s) (fun r h => runes_scalar h) []
  rw [List.append_nil] at this
  rw [this]
  simp [unescape, repaired, enc]

/-! ### Words -/

/-- A character with its bytes. -/
def ch (r : Nat) : Nat × Bytes := (r, encodeRune r)

theorem enc_nil : enc [] = [] := rfl

theorem enc_cons (r : Nat) (rs : List Nat) : enc (r :: rs) = encodeRune r ++ enc rs := rfl

theorem enc_append (a b : List Nat) : enc (a ++ b) = enc a ++ enc b := by simp [enc]

theorem encodeRune_ne (r : Nat) : encodeRune r ≠ [] := by
  intro h
  have := encodeRune_pos r
  rw [h] at this
  simp at this

theorem enc_eq_nil {rs : List Nat} : enc rs = [] ↔ rs = [] := by
  cases rs with
  | nil => simp [enc]
  | cons r rs => simp [enc_cons, encodeRune_ne]

/-- The bytes of ASCII characters. -/
theorem encodeRune_ascii {c : UInt8} (h : c.toNat < 0x80) : encodeRune c.toNat = [c] := by
  unfold encodeRune
  rw [if_pos h]
  simp

theorem chunksN_fuel : ∀ (n m : Nat) (s : Bytes), s.length ≤ n → s.length ≤ m → chunksN n s = chunksN m s := by
  intro n
  induction n with
  | zero =>
    intro m s h _
    have : s = [] := List.length_eq_zero_iff.1 (by omega)
    subst this
    cases m <;> rfl
  | succ n ih =>
    intro m s h1 h2
    cases s with
    | nil => cases m <;> rfl
    | cons a s =>
      cases m with
      | zero => simp at h2
      | succ m =>
        have hw := decode_width (a :: s) (by simp)
        rw [chunksN, chunksN]
        · congr 1
          apply ih <;> simp only [List.length_drop, List.length_cons] at * <;> omega
        · simp
        · simp

theorem chunks_encode {r : Nat} (h : Scalar r) (s : Bytes) : chunks (encodeRune r ++ s) = ch r :: chunks s := by
  have hp := encodeRune_pos r
  unfold chunks
  obtain ⟨n, hn⟩ : ∃ n, (encodeRune r ++ s).length = n + 1 := ⟨(encodeRune r ++ s).length - 1, by simp; omega⟩
  rw [hn, chunksN]
  · rw [decode_encode h]
    simp only [List.take_left, List.drop_left, ch]
    congr 1
    apply chunksN_fuel
    · simp at hn; omega
    · exact Nat.le_refl _
  · simp [encodeRune_ne]

theorem chunks_enc : ∀ (rs : List Nat), (∀ r ∈ rs, Scalar r) → ∀ s, chunks (enc rs ++ s) = rs.map ch ++ chunks s := by
  intro rs
  induction rs with
  | nil => intro _ s; rfl
  | cons r rs ih =>
    intro h s
    rw [enc_cons, List.append_assoc, chunks_encode (h r (by simp)), ih fun c hc => h c (by simp [hc])]
    rfl

theorem wordsFrom_plain : ∀ (rs : List Nat), (∀ r ∈ rs, isSpace r = false) → ∀ cur cs,
    wordsFrom cur (rs.map ch ++ cs) = wordsFrom (cur ++ enc rs) cs := by
  intro rs
  induction rs with
  | nil => intro _ cur cs; simp [enc]
  | cons r rs ih =>
    intro h cur cs
    simp only [List.map_cons, List.cons_append, ch, wordsFrom, h r (by simp), Bool.false_eq_true, if_false]
    have := ih (fun c hc => h c (by simp [hc])) (cur ++ encodeRune r) cs
    rw [this, enc_cons, List.append_assoc]

theorem wordsFrom_blank : ∀ (rs : List Nat), (∀ r ∈ rs, isSpace r = true) → ∀ cs,
    wordsFrom [] (rs.map ch ++ cs) = wordsFrom [] cs := by
  intro rs
  induction rs with
  | nil => intro _ cs; rfl
  | cons r rs ih =>
    intro h cs
    have := ih (fun c hc => h c (by simp [hc])) cs
    simp only [List.map_cons, List.cons_append, ch, wordsFrom, h r (by simp), if_true, addWord] at this ⊢
    exact this

theorem wordsFrom_space {r : Nat} (h : isSpace r = true) (cur : Bytes) (cs : List (Nat × Bytes)) :
    wordsFrom cur (ch r :: cs) = addWord cur (wordsFrom [] cs) := by
  simp only [ch, wordsFrom, h, if_true]

/-- A word that has begun is the beginning of the first word. -/
theorem wordsFrom_prefix : ∀ (cs : List (Nat × Bytes)) (cur : Bytes), cur ≠ [] →
    ∃ w ws, wordsFrom cur cs = (cur ++ w) :: ws := by
  intro cs
  induction cs with
  | nil => intro cur h; exact ⟨[], [], by simp [wordsFrom, addWord, h]⟩
  | cons p cs ih =>
    intro cur h
    obtain ⟨r, b⟩ := p
    simp only [wordsFrom]
    split
    · exact ⟨[], wordsFrom [] cs, by simp [addWord, h]⟩
    · obtain ⟨w, ws, hw⟩ := ih (cur ++ b) (by simp [h])
      exact ⟨b ++ w, ws, by rw [hw, List.append_assoc]⟩

/-! ### Lines -/

theorem linesFrom_line : ∀ (l : Bytes), 10 ∉ l → ∀ cur rest,
    linesFrom cur (l ++ 10 :: rest) = (cur ++ l) :: linesFrom [] rest := by
  intro l
  induction l with
  | nil => intro _ cur rest; simp [linesFrom]
  | cons c l ih =>
    intro h cur rest
    simp only [List.mem_cons, not_or] at h
    rw [List.cons_append, linesFrom, if_neg (fun h2 => h.1 h2.symm), ih h.2, List.append_assoc]
    rfl

theorem lines_line {l : Bytes} (h : 10 ∉ l) (rest : Bytes) : lines (l ++ 10 :: rest) = l :: lines rest :=
  linesFrom_line l h [] rest

/-- A text with a newline has a first line. -/
theorem split_line : ∀ (s : Bytes), 10 ∈ s → ∃ l rest, s = l ++ 10 :: rest ∧ 10 ∉ l := by
  intro s
  induction s with
  | nil => intro h; simp at h
  | cons c s ih =>
    intro h
    by_cases hc : c = 10
    · subst hc; exact ⟨[], s, rfl, by simp⟩
    · have h2 : 10 ∈ s := by
        rcases List.mem_cons.1 h with h | h
        · exact absurd h.symm hc
        · exact h
      obtain ⟨l, rest, rfl, hl⟩ := ih h2
      exact ⟨c :: l, rest, rfl, by simp only [List.mem_cons, not_or]; exact ⟨fun h => hc h.symm, hl⟩⟩

end Claw.Text
