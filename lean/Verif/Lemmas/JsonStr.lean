import Verif.Spec.JsonStr

/-!
# Decoding and encoding of characters; escaping of strings
-/

namespace Claw.Json

theorem toUInt8_toNat {n : Nat} (h : n < 256) : (n.toUInt8).toNat = n := by
  simp [Nat.mod_eq_of_lt h]

theorem within_pos {lo hi n : Nat} {b : UInt8} (h : b.toNat = n) (h1 : lo ≤ n) (h2 : n ≤ hi) :
    within lo hi b = true := by simp [within, h, h1, h2]

theorem within_neg {lo hi n : Nat} {b : UInt8} (h : b.toNat = n) (h1 : n < lo ∨ hi < n) :
    ¬ within lo hi b = true := by simp [within, h]; omega

/-- Encoding is undone by decoding. -/
theorem decode_encode {r : Nat} (h : Scalar r) (t : Bytes) :
    decodeRune (encodeRune r ++ t) = (r, (encodeRune r).length) := by
  unfold Scalar at h
  unfold encodeRune
  split
  · rename_i h1
    simp only [List.cons_append, List.nil_append, decodeRune]
    rw [toUInt8_toNat (by omega), if_pos h1]
    rfl
  · split
    · have ha : (0xC0 + r / 64).toUInt8.toNat = 0xC0 + r / 64 := toUInt8_toNat (by omega)
      have hb : (0x80 + r % 64).toUInt8.toNat = 0x80 + r % 64 := toUInt8_toNat (by omega)
      generalize (0xC0 + r / 64).toUInt8 = a at *
      generalize (0x80 + r % 64).toUInt8 = b at *
      simp only [List.cons_append, List.nil_append, decodeRune]
      rw [if_neg (by omega), if_pos (within_pos ha (by omega) (by omega)),
        if_pos (within_pos hb (by omega) (by omega)), ha, hb]
      simp; omega
    · split
      · omega
      · split
        · have ha : (0xE0 + r / 4096).toUInt8.toNat = 0xE0 + r / 4096 := toUInt8_toNat (by omega)
          have hb : (0x80 + r / 64 % 64).toUInt8.toNat = 0x80 + r / 64 % 64 := toUInt8_toNat (by omega)
          have hc : (0x80 + r % 64).toUInt8.toNat = 0x80 + r % 64 := toUInt8_toNat (by omega)
          generalize (0xE0 + r / 4096).toUInt8 = a at *
          generalize (0x80 + r / 64 % 64).toUInt8 = b at *
          generalize (0x80 + r % 64).toUInt8 = c at *
          simp only [List.cons_append, List.nil_append, decodeRune]
          rw [if_neg (by omega), if_neg (within_neg ha (by omega)),
            if_pos (within_pos ha (by omega) (by omega)), if_pos]
          · rw [ha, hb, hc]; simp; omega
          · rw [within_pos hb (by split <;> omega) (by split <;> omega), within_pos hc (by omega) (by omega)]
            rfl
        · have ha : (0xF0 + r / 262144).toUInt8.toNat = 0xF0 + r / 262144 := toUInt8_toNat (by omega)
          have hb : (0x80 + r / 4096 % 64).toUInt8.toNat = 0x80 + r / 4096 % 64 := toUInt8_toNat (by omega)
          have hc : (0x80 + r / 64 % 64).toUInt8.toNat = 0x80 + r / 64 % 64 := toUInt8_toNat (by omega)
          have hd : (0x80 + r % 64).toUInt8.toNat = 0x80 + r % 64 := toUInt8_toNat (by omega)
          generalize (0xF0 + r / 262144).toUInt8 = a at *
          generalize (0x80 + r / 4096 % 64).toUInt8 = b at *
          generalize (0x80 + r / 64 % 64).toUInt8 = c at *
          generalize (0x80 + r % 64).toUInt8 = d at *
          simp only [List.cons_append, List.nil_append, decodeRune]
          rw [if_neg (by omega), if_neg (within_neg ha (by omega)), if_neg (within_neg ha (by omega)),
            if_pos (within_pos ha (by omega) (by omega)), if_pos]
          · rw [ha, hb, hc, hd]; simp; omega
          · rw [within_pos hb (by split <;> omega) (by split <;> omega), within_pos hc (by omega) (by omega),
              within_pos hd (by omega) (by omega)]
            rfl

theorem within_iff {lo hi : Nat} {b : UInt8} : within lo hi b = true ↔ lo ≤ b.toNat ∧ b.toNat ≤ hi := by
  simp [within]

theorem scalar_ite {c : Bool} {x y : Nat × Nat} (h : c = true → Scalar x.1) (h' : Scalar y.1) :
    Scalar (if c = true then x else y).1 := by
  split
  · rename_i hc; exact h hc
  · exact h'

theorem decode_scalar (s : Bytes) : Scalar (decodeRune s).1 := by
  have h0 : Scalar 0xFFFD := by simp [Scalar]
  unfold decodeRune
  cases s with
  | nil => exact h0
  | cons a r =>
    simp only
    split
    · simp only [Scalar]; omega
    · split
      · rename_i _ ha
        rw [within_iff] at ha
        split
        · split
          · rename_i hb
            rw [within_iff] at hb
            simp only [Scalar]; omega
          · exact h0
        · exact h0
      · split
        · rename_i _ _ ha
          rw [within_iff] at ha
          split
          · refine scalar_ite (fun hb => ?_) h0
            simp only [Bool.and_eq_true, within_iff] at hb
            obtain ⟨⟨h1, h2⟩, h3, h4⟩ := hb
            simp only [Scalar]
            split at h1 <;> split at h2 <;> omega
          · exact h0
        · split
          · rename_i _ _ _ ha
            rw [within_iff] at ha
            split
            · refine scalar_ite (fun hb => ?_) h0
              simp only [Bool.and_eq_true, within_iff] at hb
              obtain ⟨⟨⟨h1, h2⟩, h3, h4⟩, h5, h6⟩ := hb
              simp only [Scalar]
              split at h1 <;> split at h2 <;> omega
            · exact h0
          · exact h0

theorem decode_width (s : Bytes) (h : s ≠ []) : 1 ≤ (decodeRune s).2 := by
  unfold decodeRune
  split
  · simp at h
  · repeat' split
    all_goals simp

theorem runesN_scalar : ∀ (n : Nat) (s : Bytes), ∀ r ∈ runesN n s, Scalar r := by
  intro n
  induction n with
  | zero => intro s r h; simp [runesN] at h
  | succ n ih =>
    intro s r h
    cases s with
    | nil => simp [runesN] at h
    | cons a s =>
      simp only [runesN, List.mem_cons] at h
      rcases h with rfl | h
      · exact decode_scalar _
      · exact ih _ r h

theorem runes_scalar {s : Bytes} {r : Nat} (h : r ∈ runes s) : Scalar r := runesN_scalar _ _ r h

theorem encodeRune_pos (r : Nat) : 1 ≤ (encodeRune r).length := by
  unfold encodeRune
  repeat' split
  all_goals simp

theorem runesN_encode : ∀ (cs : List Nat), (∀ c ∈ cs, Scalar c) → ∀ n, (cs.flatMap encodeRune).length ≤ n →
    runesN n (cs.flatMap encodeRune) = cs := by
  intro cs
  induction cs with
  | nil => intro _ n _; cases n <;> simp [runesN]
  | cons c cs ih =>
    intro hs n hn
    have hp := encodeRune_pos c
    simp only [List.flatMap_cons, List.length_append] at hn
    obtain ⟨n, rfl⟩ : ∃ m, n = m + 1 := ⟨n - 1, by omega⟩
    have hne : encodeRune c ++ cs.flatMap encodeRune ≠ [] := by
      intro h
      have := congrArg List.length h
      simp only [List.length_append, List.length_nil] at this
      omega
    simp only [List.flatMap_cons]
    have hr : runesN (n + 1) (encodeRune c ++ cs.flatMap encodeRune) =
        (decodeRune (encodeRune c ++ cs.flatMap encodeRune)).1 ::
          runesN n ((encodeRune c ++ cs.flatMap encodeRune).drop
            (decodeRune (encodeRune c ++ cs.flatMap encodeRune)).2) := by
      cases h : encodeRune c ++ cs.flatMap encodeRune with
      | nil => exact absurd h hne
      | cons a l => rfl
    rw [hr, decode_encode (hs c (by simp))]
    simp only [List.drop_left]
    rw [ih (fun c hc => hs c (by simp [hc])) n (by omega)]

/-- A string that is valid is not changed. -/
theorem repaired_utf8 {s : Bytes} (h : Utf8 s) : repaired s = s := by
  obtain ⟨cs, hc, rfl⟩ := h
  unfold repaired runes
  rw [runesN_encode cs hc _ (Nat.le_refl _)]

theorem utf8_repaired (s : Bytes) : Utf8 (repaired s) := ⟨runes s, fun _ h => runes_scalar h, rfl⟩

/-! ### Escaping -/

theorem parse_plain {c : UInt8} (h1 : c ≠ 0x22) (h2 : c ≠ 0x5C) (h3 : ¬ c < 0x20) (r : Bytes) :
    parseChars (c :: r) = (parseChars r).map fun p => (c :: p.1, p.2) := by
  rw [parseChars.eq_def]; simp only [h1, h2, h3, if_false]

theorem parse_high : ∀ (l : Bytes), (∀ c ∈ l, 0x80 ≤ c.toNat) → ∀ r,
    parseChars (l ++ r) = (parseChars r).map fun p => (l ++ p.1, p.2) := by
  intro l
  induction l with
  | nil => intro _ r; cases h : parseChars r <;> simp [h]
  | cons c l ih =>
    intro h r
    have hc := h c (by simp)
    rw [List.cons_append, parse_plain (by rintro rfl; simp at hc) (by rintro rfl; simp at hc)
      (by rw [UInt8.lt_iff_toNat_lt]; simp; omega), ih (fun c hm => h c (by simp [hm]))]
    cases parseChars r <;> simp

theorem encode_high {r : Nat} (h : 0x80 ≤ r) : ∀ c ∈ encodeRune r, 0x80 ≤ c.toNat := by
  unfold encodeRune
  rw [if_neg (by omega)]
  split
  · intro c hc
    simp only [List.mem_cons, List.not_mem_nil, or_false] at hc
    rcases hc with rfl | rfl <;> rw [toUInt8_toNat (by omega)] <;> omega
  · split
    · decide
    · split
      · intro c hc
        simp only [List.mem_cons, List.not_mem_nil, or_false] at hc
        rcases hc with rfl | rfl | rfl <;> rw [toUInt8_toNat (by omega)] <;> omega
      · intro c hc
        simp only [List.mem_cons, List.not_mem_nil, or_false] at hc
        rcases hc with rfl | rfl | rfl | rfl <;> rw [toUInt8_toNat (by omega)] <;> omega

theorem parse_control : ∀ r < 0x20, ∃ a b, hexDigit (r / 16) = a ∧ hexDigit (r % 16) = b ∧
    hex4 0x30 0x30 a b = some r ∧ encodeRune r = [r.toUInt8] := by
  intro r hr
  refine ⟨_, _, rfl, rfl, ?_, by simp [encodeRune]; omega⟩
  revert r
  decide

/-- What the escape of a character is read as. -/
theorem parse_escapeRune {r : Nat} (h : Scalar r) (t : Bytes) :
    parseChars (escapeRune r ++ t) = (parseChars t).map fun p => (encodeRune r ++ p.1, p.2) := by
  unfold escapeRune
  split
  · rename_i h; subst h
    simp [parseChars.eq_def (_ :: _), simpleEscape, encodeRune]
  · split
    · rename_i h; subst h
      simp [parseChars.eq_def (_ :: _), simpleEscape, encodeRune]
    · split
      · rename_i h; subst h
        simp [parseChars.eq_def (_ :: _), simpleEscape, encodeRune]
      · split
        · rename_i h; subst h
          simp [parseChars.eq_def (_ :: _), simpleEscape, encodeRune]
        · split
          · rename_i h; subst h
            simp [parseChars.eq_def (_ :: _), simpleEscape, encodeRune]
          · split
            · rename_i hr
              obtain ⟨a, b, ha, hb, h4, he⟩ := parse_control r hr
              rw [ha, hb]
              simp only [List.cons_append, List.nil_append]
              rw [parseChars.eq_def]
              simp only
              rw [if_neg (by decide), if_pos (by trivial), if_pos (by trivial), h4]
              simp only
              rw [if_neg (by omega)]
            · split
              · unfold Scalar at h; omega
              · rename_i h1 h2 h3 h4 h5 h6 h7
                by_cases hl : r < 0x80
                · have he : encodeRune r = [r.toUInt8] := by simp [encodeRune, hl]
                  have hn : r.toUInt8.toNat = r := toUInt8_toNat (by omega)
                  rw [he, List.singleton_append, parse_plain]
                  · simp
                  · intro h; rw [h] at hn; simp at hn; omega
                  · intro h; rw [h] at hn; simp at hn; omega
                  · rw [UInt8.lt_iff_toNat_lt, hn]; simp; omega
                · exact parse_high _ (encode_high (by omega)) t

theorem parse_escape : ∀ (rs : List Nat), (∀ r ∈ rs, Scalar r) → ∀ t,
    parseChars (rs.flatMap escapeRune ++ t) =
      (parseChars t).map fun p => (rs.flatMap encodeRune ++ p.1, p.2) := by
  intro rs
  induction rs with
  | nil => intro _ t; cases h : parseChars t <;> simp [h]
  | cons r rs ih =>
    intro h t
    simp only [List.flatMap_cons, List.append_assoc]
    rw [parse_escapeRune (h r (by simp)), ih fun r hm => h r (by simp [hm])]
    cases parseChars t <;> simp

theorem runesN_ascii : ∀ (s : Bytes), (∀ c ∈ s, c.toNat < 0x80) → ∀ n, s.length ≤ n →
    runesN n s = s.map (·.toNat) := by
  intro s
  induction s with
  | nil => intro _ n _; cases n <;> simp [runesN]
  | cons c s ih =>
    intro h n hn
    simp only [List.length_cons] at hn
    obtain ⟨n, rfl⟩ : ∃ m, n = m + 1 := ⟨n - 1, by omega⟩
    have hc := h c (by simp)
    have hd : decodeRune (c :: s) = (c.toNat, 1) := by rw [decodeRune.eq_def]; simp only [if_pos hc]
    simp only [runesN, hd, List.drop_succ_cons, List.drop_zero, List.map_cons]
    rw [ih (fun c hm => h c (by simp [hm])) n (by omega)]

theorem repaired_ascii {s : Bytes} (h : ∀ c ∈ s, c.toNat < 0x80) : repaired s = s := by
  unfold repaired runes
  rw [runesN_ascii s h _ (Nat.le_refl _)]
  induction s with
  | nil => rfl
  | cons c s ih =>
    have hc := h c (by simp)
    simp only [List.map_cons, List.flatMap_cons]
    rw [ih fun c hm => h c (by simp [hm])]
    simp [encodeRune, hc]

theorem parse_raw : ∀ (s : Bytes), (∀ c ∈ s, needsEscape c = false) → ∀ t,
    parseChars (s ++ t) = (parseChars t).map fun p => (s ++ p.1, p.2) := by
  intro s
  induction s with
  | nil => intro _ t; cases h : parseChars t <;> simp [h]
  | cons c s ih =>
    intro h t
    have hc := h c (by simp)
    simp only [needsEscape, Bool.or_eq_false_iff, decide_eq_false_iff_not, beq_eq_false_iff_ne] at hc
    rw [List.cons_append, parse_plain hc.1.1.2 hc.1.2 hc.1.1.1, ih fun c hm => h c (by simp [hm])]
    cases parseChars t <;> simp

/-- A written string is read as the string, repaired. -/
theorem parse_escapeString (s t : Bytes) : parseString (escapeString s ++ t) = some (repaired s, t) := by
  unfold escapeString
  split
  · simp only [List.cons_append, List.append_assoc, List.nil_append, parseString, if_true]
    rw [parse_escape _ (fun r h => runes_scalar h)]
    rw [parseChars.eq_def (_ :: t)]
    simp [repaired]
  · rename_i h
    have h' : ∀ c ∈ s, needsEscape c = false := by
      intro c hc
      cases hn : needsEscape c with
      | false => rfl
      | true => exact absurd (List.any_eq_true.2 ⟨c, hc, hn⟩) h
    simp only [List.cons_append, List.append_assoc, List.nil_append, parseString, if_true]
    rw [parse_raw s h', parseChars.eq_def (_ :: t), repaired_ascii]
    · simp
    · intro c hc
      have := h' c hc
      simp only [needsEscape, Bool.or_eq_false_iff, decide_eq_false_iff_not] at this
      have h2 := this.2
      rw [UInt8.lt_iff_toNat_lt] at h2
      simp at h2
      omega

/-! ### Repair -/

theorem toNat_toUInt8 {b : UInt8} {n : Nat} (h : n = b.toNat) : n.toUInt8 = b := by
  subst h; simp

/-- Decoding finds the character at the start, or there is none. -/
theorem decode_cases (a : UInt8) (s : Bytes) :
    (Scalar (decodeRune (a :: s)).1 ∧ encodeRune (decodeRune (a :: s)).1 <+: a :: s ∧
      (decodeRune (a :: s)).2 = (encodeRune (decodeRune (a :: s)).1).length) ∨
    decodeRune (a :: s) = (0xFFFD, 1) := by
  have ha := a.toNat_lt
  by_cases h1 : a.toNat < 0x80
  · left
    have hd : decodeRune (a :: s) = (a.toNat, 1) := by rw [decodeRune.eq_def]; simp only [if_pos h1]
    refine ⟨decode_scalar _, ?_⟩
    rw [hd]
    simp [encodeRune, h1]
  · by_cases h2 : within 0xC2 0xDF a = true
    · rw [decodeRune.eq_def]
      simp only [if_neg h1, if_pos h2]
      rw [within_iff] at h2
      cases s with
      | nil => exact .inr rfl
      | cons b s =>
        simp only
        by_cases h3 : within 0x80 0xBF b = true
        · left
          simp only [if_pos h3]
          rw [within_iff] at h3
          have e : encodeRune ((a.toNat - 0xC0) * 64 + (b.toNat - 0x80)) = [a, b] := by
            unfold encodeRune
            rw [if_neg (by omega), if_pos (by omega), toNat_toUInt8 (b := a) (by omega),
              toNat_toUInt8 (b := b) (by omega)]
          refine ⟨by simp only [Scalar]; omega, ?_⟩
          rw [e]; simp
        · right; simp only [if_neg h3]
    · by_cases h3 : within 0xE0 0xEF a = true
      · rw [decodeRune.eq_def]
        simp only [if_neg h1, if_neg h2, if_pos h3]
        rw [within_iff] at h3
        match s with
        | [] => exact .inr rfl
        | [_] => exact .inr rfl
        | b :: c :: s =>
          simp only
          by_cases h4 : (within (if a.toNat = 0xE0 then 0xA0 else 0x80) (if a.toNat = 0xED then 0x9F else 0xBF) b &&
            within 0x80 0xBF c) = true
          · left
            rw [if_pos h4]
            simp only [Bool.and_eq_true, within_iff] at h4
            obtain ⟨⟨h5, h6⟩, h7, h8⟩ := h4
            have h9 : 0x80 ≤ b.toNat ∧ b.toNat ≤ 0xBF ∧ (a.toNat = 0xE0 → 0xA0 ≤ b.toNat) ∧
                (a.toNat = 0xED → b.toNat ≤ 0x9F) := by
              split at h5 <;> split at h6 <;> omega
            have e : encodeRune ((a.toNat - 0xE0) * 4096 + (b.toNat - 0x80) * 64 + (c.toNat - 0x80)) = [a, b, c] := by
              unfold encodeRune
              rw [if_neg (by omega), if_neg (by omega), if_neg (by omega), if_pos (by omega),
                toNat_toUInt8 (b := a) (by omega), toNat_toUInt8 (b := b) (by omega),
                toNat_toUInt8 (b := c) (by omega)]
            refine ⟨by simp only [Scalar]; omega, ?_⟩
            simp only
            rw [e]; simp
          · right; rw [if_neg h4]
      · by_cases h4 : within 0xF0 0xF4 a = true
        · rw [decodeRune.eq_def]
          simp only [if_neg h1, if_neg h2, if_neg h3, if_pos h4]
          rw [within_iff] at h4
          match s with
          | [] => exact .inr rfl
          | [_] => exact .inr rfl
          | [_, _] => exact .inr rfl
          | b :: c :: d :: s =>
            simp only
            by_cases h5 : (within (if a.toNat = 0xF0 then 0x90 else 0x80) (if a.toNat = 0xF4 then 0x8F else 0xBF) b &&
              within 0x80 0xBF c && within 0x80 0xBF d) = true
            · left
              rw [if_pos h5]
              simp only [Bool.and_eq_true, within_iff] at h5
              obtain ⟨⟨⟨h5, h6⟩, h7, h8⟩, hx, hy⟩ := h5
              have h9 : 0x80 ≤ b.toNat ∧ b.toNat ≤ 0xBF ∧ (a.toNat = 0xF0 → 0x90 ≤ b.toNat) ∧
                  (a.toNat = 0xF4 → b.toNat ≤ 0x8F) := by
                split at h5 <;> split at h6 <;> omega
              have e : encodeRune ((a.toNat - 0xF0) * 262144 + (b.toNat - 0x80) * 4096 + (c.toNat - 0x80) * 64 +
                  (d.toNat - 0x80)) = [a, b, c, d] := by
                unfold encodeRune
                rw [if_neg (by omega), if_neg (by omega), if_neg (by omega), if_neg (by omega),
                  toNat_toUInt8 (b := a) (by omega), toNat_toUInt8 (b := b) (by omega),
                  toNat_toUInt8 (b := c) (by omega), toNat_toUInt8 (b := d) (by omega)]
              refine ⟨by simp only [Scalar]; omega, ?_⟩
              simp only
              rw [e]; simp
            · right; rw [if_neg h5]
        · right
          rw [decodeRune.eq_def]
          simp only [if_neg h1, if_neg h2, if_neg h3, if_neg h4]

theorem runesN_repair : ∀ (n : Nat) (s : Bytes), s.length ≤ n → Repair s ((runesN n s).flatMap encodeRune) := by
  intro n
  induction n with
  | zero =>
    intro s h
    have : s = [] := List.eq_nil_of_length_eq_zero (by omega)
    subst this
    exact .nil
  | succ n ih =>
    intro s hn
    cases s with
    | nil => exact .nil
    | cons a s =>
      simp only [runesN, List.flatMap_cons]
      rcases decode_cases a s with ⟨h1, ⟨t, ht⟩, h3⟩ | h
      · rw [h3]
        have hp := encodeRune_pos (decodeRune (a :: s)).1
        have hl := congrArg List.length ht
        simp only [List.length_append, List.length_cons] at hl hn
        have hdrop : (a :: s).drop (encodeRune (decodeRune (a :: s)).1).length = t := by
          have := congrArg (List.drop (encodeRune (decodeRune (a :: s)).1).length) ht
          rw [List.drop_left] at this
          exact this.symm
        rw [hdrop]
        generalize (decodeRune (a :: s)).1 = r at *
        rw [← ht]
        exact .char h1 (ih t (by omega))
      · have hl : s.length ≤ n := by simpa using hn
        rw [h]
        refine .bad ?_ (ih s hl)
        rintro c hc ⟨t, ht⟩
        rw [← ht, decode_encode hc] at h
        simp only [Prod.mk.injEq] at h
        obtain ⟨rfl, h⟩ := h
        revert h; decide

theorem repair (s : Bytes) : Repair s (repaired s) := runesN_repair _ _ (Nat.le_refl _)

/-! ### The characters of the written text -/

theorem utf8_append {s t : Bytes} (h : Utf8 s) (h' : Utf8 t) : Utf8 (s ++ t) := by
  obtain ⟨a, ha, rfl⟩ := h
  obtain ⟨b, hb, rfl⟩ := h'
  exact ⟨a ++ b, by
    intro c hc
    rcases List.mem_append.1 hc with h | h
    · exact ha c h
    · exact hb c h, by simp⟩

theorem utf8_ascii {s : Bytes} (h : ∀ c ∈ s, c.toNat < 0x80) : Utf8 s := by
  have := utf8_repaired s
  rwa [repaired_ascii h] at this

theorem utf8_flatMap {f : Nat → Bytes} : ∀ {l : List Nat}, (∀ r ∈ l, Utf8 (f r)) → Utf8 (l.flatMap f) := by
  intro l
  induction l with
  | nil => intro _; exact ⟨[], by simp, rfl⟩
  | cons r l ih =>
    intro h
    rw [List.flatMap_cons]
    exact utf8_append (h r (by simp)) (ih fun r hr => h r (by simp [hr]))

theorem hexDigit_ascii : ∀ n < 16, 0x20 ≤ (hexDigit n).toNat ∧ (hexDigit n).toNat < 0x80 := by decide

theorem escapeRune_chars {r : Nat} (h : Scalar r) : Utf8 (escapeRune r) ∧ ∀ c ∈ escapeRune r, 0x20 ≤ c.toNat := by
  have small : ∀ l : Bytes, (∀ c ∈ l, 0x20 ≤ c.toNat ∧ c.toNat < 0x80) → Utf8 l ∧ ∀ c ∈ l, 0x20 ≤ c.toNat :=
    fun l hl => ⟨utf8_ascii fun c hc => (hl c hc).2, fun c hc => (hl c hc).1⟩
  unfold escapeRune
  split
  · exact small _ (by decide)
  · split
    · exact small _ (by decide)
    · split
      · exact small _ (by decide)
      · split
        · exact small _ (by decide)
        · split
          · exact small _ (by decide)
          · split
            · refine small _ ?_
              intro c hc
              simp only [List.mem_cons, List.not_mem_nil, or_false] at hc
              rcases hc with rfl | rfl | rfl | rfl | rfl | rfl
              · decide
              · decide
              · decide
              · decide
              · exact hexDigit_ascii _ (by omega)
              · exact hexDigit_ascii _ (by omega)
            · split
              · exact small _ (by decide)
              · refine ⟨⟨[r], by simpa using h, by simp⟩, ?_⟩
                by_cases hl : r < 0x80
                · have he : encodeRune r = [r.toUInt8] := by simp [encodeRune, hl]
                  rw [he]
                  intro c hc
                  simp only [List.mem_singleton] at hc
                  subst hc
                  rw [toUInt8_toNat (by omega)]
                  omega
                · intro c hc
                  have := encode_high (by omega) c hc
                  omega

/-- A written string is UTF-8 without control characters. -/
theorem escapeString_chars (s : Bytes) :
    Utf8 (escapeString s) ∧ ∀ c ∈ escapeString s, 0x20 ≤ c.toNat := by
  have q : Utf8 [0x22] := utf8_ascii (by decide)
  unfold escapeString
  split
  · constructor
    · exact utf8_append (utf8_append q (utf8_flatMap fun r hr => (escapeRune_chars (runes_scalar hr)).1)) q
    · intro c hc
      simp only [List.cons_append, List.mem_cons, List.mem_append, List.mem_flatMap, List.not_mem_nil, or_false] at hc
      rcases hc with rfl | ⟨r, hr, hc⟩ | rfl
      · decide
      · exact (escapeRune_chars (runes_scalar hr)).2 c hc
      · decide
  · rename_i h
    have h' : ∀ c ∈ s, needsEscape c = false := by
      intro c hc
      cases hn : needsEscape c with
      | false => rfl
      | true => exact absurd (List.any_eq_true.2 ⟨c, hc, hn⟩) h
    have h2 : ∀ c ∈ s, 0x20 ≤ c.toNat ∧ c.toNat < 0x80 := by
      intro c hc
      have := h' c hc
      simp only [needsEscape, Bool.or_eq_false_iff, decide_eq_false_iff_not] at this
      have h1 := this.1.1.1
      have h2 := this.2
      rw [UInt8.lt_iff_toNat_lt] at h1 h2
      simp at h1 h2
      omega
    constructor
    · exact utf8_append (utf8_append q (utf8_ascii fun c hc => (h2 c hc).2)) q
    · intro c hc
      simp only [List.cons_append, List.mem_cons, List.mem_append, List.not_mem_nil, or_false] at hc
      rcases hc with rfl | hc | rfl
      · decide
      · exact (h2 c hc).1
      · decide

end Claw.Json
