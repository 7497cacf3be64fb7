import Verif.Lemmas.TextLine

/-!
# Strings as words of a line
-/

namespace Claw.Text

open Claw.Idl (FT Out)
open Claw.Tok
open Claw.Json

set_option linter.unusedSimpArgs false

/-- Escaped characters. -/
def esc (rs : List Nat) : Bytes := rs.flatMap escapeRune

theorem esc_cons (r : Nat) (rs : List Nat) : esc (r :: rs) = escapeRune r ++ esc rs := rfl

theorem esc_append (a b : List Nat) : esc (a ++ b) = esc a ++ esc b := by simp [esc]

theorem quoted_esc (s : Bytes) : quoted s = 0x22 :: (esc (runes s) ++ [0x22]) := rfl

theorem solid_escapeRune {r : Nat} (h : Scalar r) (hw : wide r = false) : Solid (escapeRune r) := by
  unfold escapeRune
  split
  · exact solid_graphic (by simp)
  split
  · exact solid_graphic (by simp)
  split
  · exact solid_graphic (by simp)
  split
  · exact solid_graphic (by simp)
  split
  · exact solid_graphic (by simp)
  split
  · rename_i h1
    apply solid_graphic
    have a := hexDigit_graphic (n := r / 16) (by omega)
    have b := hexDigit_graphic (n := r % 16) (by omega)
    intro c hc
    simp only [List.mem_cons, List.not_mem_nil, or_false] at hc
    rcases hc with rfl | rfl | rfl | rfl | rfl | rfl
    · decide
    · decide
    · decide
    · decide
    · omega
    · omega
  split
  · exact solid_graphic (by simp)
  · rename_i h1 _
    refine ⟨[r], by simp [enc], fun c hc => ?_⟩
    rw [List.mem_singleton] at hc
    subst hc
    refine ⟨h, ?_⟩
    simp only [wide, Bool.and_eq_false_iff, decide_eq_false_iff_not] at hw
    rcases hw with hw | hw
    · exact hw
    · omega

theorem solid_esc {rs : List Nat} (h : ∀ r ∈ rs, Scalar r ∧ wide r = false) : Solid (esc rs) := by
  induction rs with
  | nil => exact solid_nil
  | cons r rs ih =>
    rw [esc_cons]
    exact solid_append (solid_escapeRune (h r (by simp)).1 (h r (by simp)).2) (ih fun c hc => h c (by simp [hc]))

theorem esc_utf8 {rs : List Nat} (h : ∀ r ∈ rs, Scalar r) : ∃ cs, (∀ c ∈ cs, Scalar c) ∧ esc rs = enc cs := by
  induction rs with
  | nil => exact ⟨[], by simp, rfl⟩
  | cons r rs ih =>
    obtain ⟨a, ha1, ha2⟩ := (escapeRune_chars (h r (by simp))).1
    obtain ⟨b, hb1, hb2⟩ := ih fun c hc => h c (by simp [hc])
    refine ⟨a ++ b, fun c hc => ?_, by rw [esc_cons, hb2, enc_append, ha2]; rfl⟩
    rcases List.mem_append.1 hc with hc | hc
    · exact ha1 c hc
    · exact hb1 c hc

theorem esc_no_newline {rs : List Nat} (h : ∀ r ∈ rs, Scalar r) : 10 ∉ esc rs := by
  intro hc
  obtain ⟨r, hr, hc⟩ := List.mem_flatMap.1 hc
  exact absurd ((escapeRune_chars (h r hr)).2 10 hc) (by decide)

theorem quoted_no_newline (s : Bytes) : 10 ∉ quoted s := by
  rw [quoted_esc]
  simp only [List.mem_cons, List.mem_append, List.not_mem_nil, or_false, not_or]
  exact ⟨by decide, esc_no_newline fun r h => runes_scalar h, by decide⟩

/-- The last byte of an escaped character. -/
theorem escapeRune_last {r : Nat} (h : Scalar r) {b : UInt8} (hb : b = 0x22 ∨ b = 44) :
    (escapeRune r).getLast? = some b ↔ r = b.toNat := by
  have hb0 : b.toNat < 0x80 ∧ b.toNat = 0x22 ∨ b.toNat = 44 := by rcases hb with rfl | rfl <;> decide
  unfold escapeRune
  split
  · rename_i h1; subst h1
    rcases hb with rfl | rfl <;> decide
  split
  · rename_i h1; subst h1
    rcases hb with rfl | rfl <;> decide
  split
  · rename_i h1; subst h1
    rcases hb with rfl | rfl <;> decide
  split
  · rename_i h1; subst h1
    rcases hb with rfl | rfl <;> decide
  split
  · rename_i h1; subst h1
    rcases hb with rfl | rfl <;> decide
  split
  · rename_i h1
    have a := hexDigit_graphic (n := r % 16) (by omega)
    simp only [List.getLast?_cons_cons, List.getLast?_singleton, Option.some.injEq]
    constructor
    · intro h2
      rw [h2] at a
      omega
    · omega
  split
  · simp [Scalar] at h; omega
  · by_cases h3 : r < 0x80
    · have h2 : encodeRune r = [r.toUInt8] := by unfold encodeRune; rw [if_pos h3]
      rw [h2]
      simp only [List.getLast?_singleton, Option.some.injEq]
      constructor
      · rintro rfl; rw [toUInt8_toNat (by omega)]
      · rintro rfl; simp
    · constructor
      · intro h2
        have := encode_high (r := r) (by omega) b (List.mem_of_getLast? h2)
        omega
      · omega

theorem esc_last {p : List Nat} (h : ∀ r ∈ p, Scalar r) {b : UInt8} (hb : b = 0x22 ∨ b = 44) :
    (esc p).getLast? = some b ↔ p.getLast? = some b.toNat := by
  rcases List.eq_nil_or_concat p with rfl | ⟨q, r, rfl⟩
  · simp [esc]
  · rw [List.concat_eq_append, esc_append] at *
    have h1 : escapeRune r ≠ [] := by
      unfold escapeRune
      repeat' split
      all_goals first | exact encodeRune_ne r | simp
    have h2 : esc [r] = escapeRune r := by simp [esc]
    have h3 : (esc q ++ escapeRune r).getLast? = (escapeRune r).getLast? := by
      rw [List.getLast?_append]
      cases h4 : (escapeRune r).getLast? with
      | none => exact absurd (List.getLast?_eq_none_iff.1 h4) h1
      | some _ => rfl
    rw [h2, h3, escapeRune_last (h r (by simp)) hb]
    simp

theorem trimLast_esc {p : List Nat} (h : ∀ r ∈ p, Scalar r) : trimLast 44 (0x22 :: esc p) = 0x22 :: esc (noComma p) := by
  unfold noComma
  split
  · rename_i h1
    rcases List.eq_nil_or_concat p with rfl | ⟨q, r, rfl⟩
    · simp at h1
    · rw [List.concat_eq_append] at *
      simp only [List.getLast?_append, List.getLast?_singleton, Option.some_or, Option.some.injEq] at h1
      subst h1
      rw [esc_append, show esc [44] = [44] from rfl, ← List.cons_append, trimLast_append, List.dropLast_concat]
  · rename_i h1
    apply trimLast_other
    unfold endsWith
    rw [beq_eq_false_iff_ne]
    intro h2
    cases he : esc p with
    | nil => rw [he] at h2; simp at h2
    | cons c l =>
      rw [he, List.getLast?_cons_cons, ← he, esc_last h (.inr rfl)] at h2
      exact h1 h2

theorem noComma_mem {p : List Nat} {r : Nat} (h : r ∈ noComma p) : r ∈ p := by
  unfold noComma at h
  split at h
  · exact List.dropLast_subset _ h
  · exact h

/-! ### The first white space -/

theorem takeWhile_split (q : Nat → Bool) : ∀ l : List Nat,
    (∀ r ∈ l.takeWhile q, q r = true) ∧
      ((l.takeWhile q).length < l.length → ∃ w t, l = l.takeWhile q ++ w :: t ∧ q w = false) ∧
      (¬ (l.takeWhile q).length < l.length → l.takeWhile q = l) := by
  intro l
  induction l with
  | nil => simp
  | cons a l ih =>
    obtain ⟨h1, h2, h3⟩ := ih
    by_cases ha : q a = true
    · rw [List.takeWhile_cons_of_pos ha]
      refine ⟨fun r hr => ?_, fun h => ?_, fun h => ?_⟩
      · rcases List.mem_cons.1 hr with rfl | hr
        · exact ha
        · exact h1 r hr
      · obtain ⟨w, t, h4, h5⟩ := h2 (by simpa using h)
        exact ⟨w, t, by rw [List.cons_append, ← h4], h5⟩
      · rw [h3 (by simpa using h)]
    · rw [List.takeWhile_cons_of_neg ha]
      exact ⟨by simp, fun _ => ⟨a, l, rfl, by simpa using ha⟩, by simp⟩

theorem firstPart_plain {s : Bytes} {r : Nat} (h : r ∈ firstPart s) : Scalar r ∧ wide r = false := by
  have h1 := (takeWhile_split (fun r => !wide r) (runes s)).1 r h
  exact ⟨runes_scalar ((List.takeWhile_subset _) h), by simpa using h1⟩

theorem escapeRune_wide {r : Nat} (h : Scalar r) (hw : wide r = true) : escapeRune r = encodeRune r := by
  simp only [wide, Bool.and_eq_true, decide_eq_true_eq] at hw
  obtain ⟨h1, h2⟩ := hw
  unfold escapeRune
  rw [if_neg (by rintro rfl; exact absurd h1 (by decide)), if_neg (by rintro rfl; exact absurd h1 (by decide)),
    if_neg (by omega), if_neg (by omega), if_neg (by omega), if_neg (by omega), if_neg (by unfold Scalar at h; omega)]

/-- A word that starts with a quote. -/
theorem words_quote {p : List Nat} (hp : ∀ r ∈ p, Scalar r ∧ wide r = false) {w : Nat} (hw : Scalar w)
    (hs : wide w = true) (t : Bytes) : words (0x22 :: (esc p ++ (encodeRune w ++ t))) = (0x22 :: esc p) :: words t := by
  have hsol : Solid (0x22 :: esc p) := by
    have := solid_append (solid_graphic (v := [0x22]) (by simp)) (solid_esc hp)
    exact this
  rw [show 0x22 :: (esc p ++ (encodeRune w ++ t)) = (0x22 :: esc p) ++ (encodeRune w ++ t) by simp]
  obtain ⟨rs, h1, h2⟩ := hsol
  have hne : (0x22 :: esc p) ≠ [] := by simp
  rw [h1] at hne ⊢
  unfold words
  rw [chunks_enc rs fun r h => (h2 r h).1, wordsFrom_plain rs fun r h => (h2 r h).2, chunks_encode hw, wordsFrom_space]
  · simp only [List.nil_append, addWord, if_neg hne]
  · simp only [wide, Bool.and_eq_true] at hs
    exact hs.1

theorem index_colon : ∀ (a : Bytes), 58 ∉ a → ∀ r, Str.index [58] (a ++ 58 :: r) = some a.length := by
  intro a
  induction a with
  | nil => intro _ r; simp [Str.index, List.isPrefixOf]
  | cons c a ih =>
    intro h r
    simp only [List.mem_cons, not_or] at h
    rw [List.cons_append, Str.index, ih h.2, if_neg]
    · rfl
    · simp [List.isPrefixOf, h.1]

theorem joined_ch (cs : List Nat) : joined (cs.map ch) = enc cs := by
  induction cs with
  | nil => rfl
  | cons c cs ih =>
    rw [List.map_cons, enc_cons, ← ih]
    rfl

/-- White space around a quoted string is trimmed. -/
theorem trimSpace_value {q : Bytes} (h : ∃ cs, (∀ c ∈ cs, Scalar c) ∧ q = enc cs) :
    trimSpace (32 :: 0x22 :: (q ++ [0x22] ++ [44])) = 0x22 :: (q ++ [0x22] ++ [44]) := by
  obtain ⟨cs, h1, rfl⟩ := h
  have h2 : 32 :: 0x22 :: (enc cs ++ [0x22] ++ [44]) = enc ([32, 0x22] ++ cs ++ [0x22, 44]) := by
    rw [enc_append, enc_append]
    simp [enc, encodeRune]
  have h3 : chunks (enc ([32, 0x22] ++ cs ++ [0x22, 44])) = ([32, 0x22] ++ cs ++ [0x22, 44]).map ch := by
    have := chunks_enc ([32, 0x22] ++ cs ++ [0x22, 44]) (by
      intro r hr
      simp only [List.mem_append, List.mem_cons, List.not_mem_nil, or_false] at hr
      rcases hr with (( rfl | rfl) | hr) | (rfl | rfl)
      · simp [Scalar]
      · simp [Scalar]
      · exact h1 r hr
      · simp [Scalar]
      · simp [Scalar]) []
    rw [List.append_nil] at this
    rw [this]
    simp [chunks, chunksN]
  unfold trimSpace
  rw [h2, h3]
  have h4 : (List.dropWhile (fun c : Nat × Bytes => isSpace c.1) (([32, 0x22] ++ cs ++ [0x22, 44]).map ch)) =
      ([0x22] ++ cs ++ [0x22, 44]).map ch := by
    rw [List.append_assoc, List.cons_append, List.map_cons, List.dropWhile_cons_of_pos (by decide), List.singleton_append,
      List.map_cons, List.dropWhile_cons_of_neg (by decide)]
    rfl
  rw [h4]
  have h5 : (([0x22] ++ cs ++ [0x22, 44]).map ch).reverse = ch 44 :: (([0x22] ++ cs ++ [0x22]).map ch).reverse := by
    simp
  rw [h5, List.dropWhile_cons_of_neg (by decide), ← h5, List.reverse_reverse, joined_ch, enc_append, enc_append]
  simp [enc, encodeRune]

theorem unquote_cut {q : List Nat} (hq : ∀ r ∈ q, Scalar r) :
    unquote (0x22 :: esc (q ++ [0x22])) = some (enc q ++ [0x5C]) := by
  rw [esc_append, show esc [0x22] = [0x5C] ++ [0x22] from rfl, ← List.append_assoc]
  simp only [unquote, endsWith_append, if_true, List.dropLast_concat]
  have := unescape_escape q hq [0x5C]
  unfold esc
  rw [this]
  simp [unescape]

/-- A string field: the first word of its line, and what is read. -/
theorem string_words {ind : Bytes} (hi : BlankText ind) {name : Str} (hn : Ident name) (s : Bytes) :
    ∃ r ws, words (quoted s ++ [44]) = (0x22 :: r) :: ws ∧
      quotedField (0x22 :: r) (fieldRaw ind name (quoted s ++ [44])) = some (strBack s) := by
  obtain ⟨_, h2, h3⟩ := takeWhile_split (fun r => !wide r) (runes s)
  change (firstPart s).length < (runes s).length → _ at h2
  change ¬ (firstPart s).length < (runes s).length → firstPart s = runes s at h3
  by_cases hl : (firstPart s).length < (runes s).length
  · obtain ⟨w, t, h4, h5⟩ := h2 hl
    change runes s = firstPart s ++ w :: t at h4
    have hsw : Scalar w := runes_scalar (s := s) (by rw [h4]; simp)
    have hw : wide w = true := by simpa using h5
    refine ⟨esc (firstPart s), words (esc t ++ [0x22] ++ [44]), ?_, ?_⟩
    · rw [quoted_esc, h4, esc_append, esc_cons, escapeRune_wide hsw hw]
      rw [show (0x22 :: (esc (firstPart s) ++ (encodeRune w ++ esc t) ++ [0x22])) ++ [44] =
        0x22 :: (esc (firstPart s) ++ (encodeRune w ++ (esc t ++ [0x22] ++ [44]))) by simp]
      exact words_quote (fun r h => firstPart_plain h) hsw hw _
    · unfold quotedField
      simp only [trimLast_esc fun r h => (firstPart_plain h).1]
      have hnc : ∀ r ∈ noComma (firstPart s), Scalar r := fun r h => (firstPart_plain (noComma_mem h)).1
      unfold strBack quoteSpace
      simp only [hl, decide_true, Bool.true_and]
      by_cases hq : (noComma (firstPart s)).getLast? = some 0x22
      · rw [hq]
        rcases List.eq_nil_or_concat (noComma (firstPart s)) with he | ⟨q, r, he⟩
        · rw [he] at hq; simp at hq
        · rw [List.concat_eq_append] at he
          rw [he] at hq hnc ⊢
          simp only [List.getLast?_append, List.getLast?_singleton, Option.some_or, Option.some.injEq] at hq
          subst hq
          have h6 : endsWith 0x22 (0x22 :: esc (q ++ [0x22])) = true := by
            rw [esc_append, show esc [0x22] = [0x5C] ++ [0x22] from rfl, ← List.append_assoc, ← List.cons_append]
            exact endsWith_append _ _
          have h7 : decide (1 < (0x22 :: esc (q ++ [0x22])).length) = true := by
            rw [esc_append, show esc [0x22] = [0x5C] ++ [0x22] from rfl]
            simp
          rw [h6, h7]
          simp only [Bool.and_self, if_true, beq_self_eq_true, List.dropLast_concat]
          exact unquote_cut fun r hr => hnc r (by simp [hr])
      · have h6 : (endsWith 0x22 (0x22 :: esc (noComma (firstPart s))) &&
            decide (1 < (0x22 :: esc (noComma (firstPart s))).length)) = false := by
          cases he : esc (noComma (firstPart s)) with
          | nil => simp
          | cons c l =>
            rw [Bool.and_eq_false_iff]
            left
            unfold endsWith
            rw [beq_eq_false_iff_ne, List.getLast?_cons_cons, ← he]
            intro h7
            exact hq ((esc_last hnc (.inl rfl)).1 h7)
        rw [h6, if_neg (by decide)]
        have h8 : ((noComma (firstPart s)).getLast? == some 0x22) = false := beq_eq_false_iff_ne.2 hq
        rw [h8, if_neg (by decide)]
        have h9 : 58 ∉ ind ++ name := by
          simp only [List.mem_append, not_or]
          refine ⟨fun h => ?_, fun h => ?_⟩
          · rcases hi 58 h with h | h <;> simp at h
          · exact absurd (ident_bytes hn 58 h) (by decide)
        have h10 : fieldRaw ind name (quoted s ++ [44]) = (ind ++ name) ++ 58 :: (32 :: (quoted s ++ [44])) := by
          simp [fieldRaw]
        rw [h10, index_colon _ h9]
        simp only
        have h11 : ((ind ++ name) ++ 58 :: (32 :: (quoted s ++ [44]))).drop ((ind ++ name).length + 1) =
            32 :: (quoted s ++ [44]) := by
          rw [List.drop_append]
          simp
        rw [h11, quoted_esc, List.cons_append, trimSpace_value (esc_utf8 fun r h => runes_scalar h), ← List.cons_append,
          trimLast_append, ← quoted_esc]
        exact unquote_quoted s
  · have h4 := h3 hl
    have hp : ∀ r ∈ runes s, Scalar r ∧ wide r = false := by
      intro r hr
      rw [← h4] at hr
      exact firstPart_plain hr
    refine ⟨esc (runes s) ++ [0x22] ++ [44], [], ?_, ?_⟩
    · have : Solid (quoted s ++ [44]) := by
        rw [quoted_esc]
        exact solid_append (solid_append (a := [0x22]) (solid_graphic (by simp))
          (solid_append (solid_esc hp) (solid_graphic (by simp)))) (solid_graphic (by simp))
      rw [words_solid this (by simp)]
      rfl
    · have h5 := quotedField_word (r := esc (runes s)) (raw := fieldRaw ind name (quoted s ++ [44]))
      rw [List.cons_append] at h5
      rw [h5, ← quoted_esc, unquote_quoted]
      unfold strBack quoteSpace
      simp [hl]

end Claw.Text
