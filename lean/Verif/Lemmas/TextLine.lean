import Verif.Lemmas.TextStr
import Verif.Lemmas.Idl
import Verif.Lemmas.JsonRead
import Verif.Lemmas.Base64

/-!
# One line of text: its words, and the token of a field
-/

namespace Claw.Text

open Claw.Idl (FT Out decimal numeral atoi)
open Claw.Tok
open Claw.Json

set_option linter.unusedSimpArgs false

/-! ### Bytes -/

/-- Characters that are no white space. -/
def Solid (v : Bytes) : Prop := ∃ rs, v = enc rs ∧ ∀ r ∈ rs, Scalar r ∧ isSpace r = false

theorem solid_nil : Solid [] := ⟨[], rfl, by simp⟩

theorem solid_append {a b : Bytes} (ha : Solid a) (hb : Solid b) : Solid (a ++ b) := by
  obtain ⟨r, rfl, hr⟩ := ha
  obtain ⟨q, rfl, hq⟩ := hb
  refine ⟨r ++ q, (enc_append _ _).symm, fun c hc => ?_⟩
  rcases List.mem_append.1 hc with hc | hc
  · exact hr c hc
  · exact hq c hc

theorem isSpace_graphic {c : UInt8} (h1 : 0x21 ≤ c.toNat) (h2 : c.toNat ≤ 0x7E) : isSpace c.toNat = false := by
  simp [isSpace]
  omega

theorem scalar_ascii {c : UInt8} (h2 : c.toNat ≤ 0x7E) : Scalar c.toNat := by
  unfold Scalar; omega

theorem enc_ascii {v : Bytes} (h : ∀ c ∈ v, c.toNat < 0x80) : enc (v.map (·.toNat)) = v := by
  induction v with
  | nil => rfl
  | cons c v ih =>
    rw [List.map_cons, enc_cons, encodeRune_ascii (h c (by simp)), ih fun c hc => h c (by simp [hc])]
    rfl

theorem solid_graphic {v : Bytes} (h : ∀ c ∈ v, 0x21 ≤ c.toNat ∧ c.toNat ≤ 0x7E) : Solid v := by
  refine ⟨v.map (·.toNat), (enc_ascii fun c hc => by have := h c hc; omega).symm, fun r hr => ?_⟩
  obtain ⟨c, hc, rfl⟩ := List.mem_map.1 hr
  have := h c hc
  exact ⟨scalar_ascii this.2, isSpace_graphic this.1 this.2⟩

/-- An ASCII byte in an encoding is a character. -/
theorem mem_enc_ascii {c : UInt8} (hc : c.toNat < 0x80) {rs : List Nat} (h : c ∈ enc rs) : c.toNat ∈ rs := by
  unfold enc at h
  obtain ⟨r, hr, h⟩ := List.mem_flatMap.1 h
  by_cases h1 : r < 0x80
  · have h2 : encodeRune r = [r.toUInt8] := by unfold encodeRune; rw [if_pos h1]
    rw [h2, List.mem_singleton] at h
    subst h
    rw [toUInt8_toNat (by omega)]
    exact hr
  · have := encode_high (r := r) (by omega) c h
    omega

theorem solid_no_newline {v : Bytes} (h : Solid v) : 10 ∉ v := by
  obtain ⟨rs, rfl, hr⟩ := h
  intro h
  have := mem_enc_ascii (by decide) h
  exact absurd (hr _ this).2 (by decide)

/-! ### Identifiers -/

/-- A byte of an identifier. -/
def identByte (c : UInt8) : Prop :=
  0x80 ≤ c.toNat ∨ (65 ≤ c.toNat ∧ c.toNat ≤ 90) ∨ (97 ≤ c.toNat ∧ c.toNat ≤ 122) ∨ (48 ≤ c.toNat ∧ c.toNat ≤ 57) ∨
    c.toNat = 95

theorem encode_ident {r : Nat} (h : identRune r) : ∀ c ∈ encodeRune r, identByte c := by
  intro c hc
  by_cases h1 : r < 0x80
  · have h2 : encodeRune r = [r.toUInt8] := by unfold encodeRune; rw [if_pos h1]
    rw [h2, List.mem_singleton] at hc
    subst hc
    have h3 := h.2.2
    unfold identByte
    rw [toUInt8_toNat (by omega)]
    exact h3
  · exact .inl (encode_high (by omega) c hc)

theorem ident_solid {n : Str} (h : Ident n) : Solid n := by
  obtain ⟨r, rs, rfl, h1, _⟩ := h
  exact ⟨_, rfl, fun c hc => ⟨(h1 c hc).1, (h1 c hc).2.1⟩⟩

theorem ident_bytes {n : Str} (h : Ident n) : ∀ c ∈ n, identByte c := by
  obtain ⟨r, rs, rfl, h1, _⟩ := h
  intro c hc
  obtain ⟨q, hq, hc⟩ := List.mem_flatMap.1 hc
  exact encode_ident (h1 q hq) c hc

theorem ident_head {n : Str} (h : Ident n) : ∃ c r, n = c :: r ∧ identByte c ∧ ¬ (48 ≤ c.toNat ∧ c.toNat ≤ 57) := by
  obtain ⟨r, rs, rfl, h1, h2⟩ := h
  have h3 := h1 r (by simp)
  by_cases h4 : r < 0x80
  · have h5 : encodeRune r = [r.toUInt8] := by unfold encodeRune; rw [if_pos h4]
    refine ⟨r.toUInt8, enc rs, by rw [enc_cons, h5]; rfl, encode_ident h3 _ (by rw [h5]; simp), ?_⟩
    rw [toUInt8_toNat (by omega)]
    exact h2
  · cases h5 : encodeRune r with
    | nil => exact absurd h5 (encodeRune_ne r)
    | cons c l =>
      have h6 := encode_high (r := r) (by omega) c (by rw [h5]; simp)
      exact ⟨c, l ++ enc rs, by rw [enc_cons, h5]; rfl, .inl h6, by omega⟩

theorem identByte_ne {c b : UInt8} (h : identByte c) (hb : ¬ identByte b) : c ≠ b := by
  rintro rfl
  exact hb h

instance (c : UInt8) : Decidable (identByte c) := by unfold identByte; infer_instance

/-! ### Words of a line -/

theorem words_solid {v : Bytes} (h : Solid v) (hne : v ≠ []) : words v = [v] := by
  obtain ⟨rs, rfl, hr⟩ := h
  unfold words
  have h1 := chunks_enc rs (fun r h => (hr r h).1) []
  rw [List.append_nil] at h1
  rw [h1, wordsFrom_plain rs (fun r h => (hr r h).2)]
  simp only [List.nil_append, chunks, List.length_nil, chunksN, wordsFrom, addWord, if_neg hne]

theorem words_graphic {b c : UInt8} (hb1 : 0x21 ≤ b.toNat) (hb2 : b.toNat ≤ 0x7E) (hc1 : 0x21 ≤ c.toNat)
    (hc2 : c.toNat ≤ 0x7E) (r : Bytes) : ∃ w ws, words (b :: c :: r) = (b :: c :: w) :: ws := by
  have h1 : b :: c :: r = enc [b.toNat, c.toNat] ++ r := by
    rw [enc_cons, enc_cons, encodeRune_ascii (by omega), encodeRune_ascii (by omega)]; rfl
  unfold words
  rw [h1, chunks_enc _ (by
    intro q hq
    simp only [List.mem_cons, List.not_mem_nil, or_false] at hq
    rcases hq with rfl | rfl
    · exact scalar_ascii hb2
    · exact scalar_ascii hc2), wordsFrom_plain _ (by
    intro q hq
    simp only [List.mem_cons, List.not_mem_nil, or_false] at hq
    rcases hq with rfl | rfl
    · exact isSpace_graphic hb1 hb2
    · exact isSpace_graphic hc1 hc2)]
  obtain ⟨w, ws, h2⟩ := wordsFrom_prefix (chunks r) ([] ++ enc [b.toNat, c.toNat]) (by simp [enc_eq_nil])
  refine ⟨w, ws, ?_⟩
  rw [h2, enc_cons, enc_cons, encodeRune_ascii (by omega), encodeRune_ascii (by omega)]
  rfl

/-- Blanks and tabs. -/
def BlankText (l : Bytes) : Prop := ∀ c ∈ l, c = 32 ∨ c = 9

theorem blank_indent {o : Opts} (h : Blank o) (k : Nat) : BlankText (indentText o k) := by
  intro c hc
  unfold indentText at hc
  obtain ⟨l, hl, hc⟩ := List.mem_flatten.1 hc
  rw [List.mem_replicate] at hl
  rw [hl.2] at hc
  exact h c hc

theorem blank_ascii {l : Bytes} (h : BlankText l) : ∀ c ∈ l, c.toNat < 0x80 := by
  intro c hc
  rcases h c hc with rfl | rfl <;> decide

/-- Indentation does not matter. -/
theorem words_blank {ind : Bytes} (h : BlankText ind) (s : Bytes) : words (ind ++ s) = words s := by
  unfold words
  rw [← enc_ascii (blank_ascii h), chunks_enc _ (by
    intro r hr
    obtain ⟨c, hc, rfl⟩ := List.mem_map.1 hr
    rcases h c hc with rfl | rfl <;> simp [Scalar]), wordsFrom_blank]
  intro r hr
  obtain ⟨c, hc, rfl⟩ := List.mem_map.1 hr
  rcases h c hc with rfl | rfl <;> decide

/-- A word, a blank and other words. -/
theorem words_split {a : Bytes} (ha : Solid a) (hne : a ≠ []) (s : Bytes) : words (a ++ 32 :: s) = a :: words s := by
  obtain ⟨rs, rfl, hr⟩ := ha
  unfold words
  rw [chunks_enc rs fun r h => (hr r h).1, wordsFrom_plain rs fun r h => (hr r h).2]
  have h1 : chunks (32 :: s) = ch 32 :: chunks s := chunks_encode (r := 32) (by simp [Scalar]) s
  rw [h1, wordsFrom_space (by decide)]
  simp only [List.nil_append, addWord, if_neg hne]

/-- The line of a field. -/
def fieldRaw (ind : Bytes) (name : Str) (v : Bytes) : Bytes := ind ++ (name ++ 58 :: 32 :: v)

theorem words_field {ind : Bytes} (hi : BlankText ind) {name : Str} (hn : Ident name) (v : Bytes) :
    words (fieldRaw ind name v) = (name ++ [58]) :: words v := by
  unfold fieldRaw
  rw [words_blank hi, show name ++ 58 :: 32 :: v = (name ++ [58]) ++ 32 :: v by simp]
  exact words_split (solid_append (ident_solid hn) (solid_graphic (by simp))) (by simp) v

theorem blank_no_newline {ind : Bytes} (hi : BlankText ind) : 10 ∉ ind := by
  intro h
  rcases hi 10 h with h | h <;> simp at h

theorem fieldRaw_no_newline {ind : Bytes} (hi : BlankText ind) {name : Str} (hn : Ident name) {v : Bytes} (hv : 10 ∉ v) :
    10 ∉ fieldRaw ind name v := by
  unfold fieldRaw
  simp only [List.mem_append, List.mem_cons, not_or]
  exact ⟨blank_no_newline hi, solid_no_newline (ident_solid hn), by decide, by decide, hv⟩

/-- What follows a step. -/
def cont (x : Ext) (s : Step) (ls : List Bytes) : List Token :=
  match s with
  | (ts, some st') => ts ++ run x false st' ls
  | (ts, none) => ts

/-- The frames that read fields. -/
def readsFields : List Frame → Bool
  | .root :: _ => true
  | .nested :: _ => true
  | _ => false

theorem run_step {x : Ext} {fr : List Frame} {l : Bytes} {first : Bytes} {more : List Bytes}
    (hw : words l = first :: more) (h1 : Str.hasPrefix (lit "//") first = false) (h2 : Str.hasPrefix (lit "/*") first = false)
    (ls : List Bytes) : run x false fr (l :: ls) = cont x (step x l fr) ls := by
  rw [run]
  simp only [items, hw, List.cons_append, List.headD_cons, h1, h2, Bool.and_false, Bool.false_eq_true, if_false]
  have h3 : ((first :: (more ++ [[10]])) == [[10]]) = false := by
    rw [beq_eq_false_iff_ne]
    intro h
    have := congrArg List.length h
    simp at this
  rw [h3]
  simp only [Bool.and_false, Bool.false_eq_true, if_false]
  rfl

theorem ident_not_prefix {name t : Str} (hn : Ident name) {c : UInt8} {p : Str} (hc : ¬ identByte c) :
    Str.hasPrefix (c :: p) (name ++ t) = false := by
  obtain ⟨a, r, rfl, ha, _⟩ := ident_head hn
  simp only [Str.hasPrefix, List.cons_append, List.isPrefixOf, Bool.and_eq_false_iff]
  exact .inl (beq_eq_false_iff_ne.2 fun h => hc (h ▸ ha))

/-- The line of a field is read by parseField. -/
theorem run_field {x : Ext} {fr : List Frame} (hfr : readsFields fr = true) {ind : Bytes} (hi : BlankText ind) {name : Str}
    (hn : Ident name) {v w : Bytes} {ws : List Bytes} (hw : words v = w :: ws) (hw10 : w ≠ [10]) (ls : List Bytes) :
    run x false fr (fieldRaw ind name v :: ls) =
      cont x (fieldValue x fr name (fieldRaw ind name v) w (ws ++ [[10]])) ls := by
  have hwords := words_field hi hn v
  rw [run_step hwords (ident_not_prefix hn (by decide)) (ident_not_prefix hn (by decide))]
  congr 1
  have hline : fieldLine x fr (fieldRaw ind name v) =
      fieldValue x fr name (fieldRaw ind name v) w (ws ++ [[10]]) := by
    unfold fieldLine
    simp only [items, hwords, hw, List.cons_append, endsWith_append, if_true, if_neg hw10, List.dropLast_concat]
  have hitems : (items (fieldRaw ind name v)).headD [] = name ++ [58] := by
    simp only [items, hwords, List.cons_append, List.headD_cons]
  match fr, hfr with
  | .root :: st, _ =>
    rw [step, hitems, if_neg, hline]
    intro h
    have := congrArg List.getLast? h
    simp [lit] at this
  | .nested :: st, _ =>
    have hc : closes (name ++ [58]) = false := by
      unfold closes
      have h2 : Str.hasPrefix (lit "},") (name ++ [58]) = false :=
        ident_not_prefix (c := 125) (p := [44]) hn (by decide)
      rw [h2, Bool.or_false, beq_eq_false_iff_ne]
      intro h
      have := congrArg List.getLast? h
      simp [lit] at this
    rw [step, hitems, hc, if_neg (by decide), hline]

/-! ### Values -/

/-- A value that is no keyword. -/
def NotKeyword (v : Bytes) : Prop :=
  v ≠ lit "null" ∧ v ≠ lit "true" ∧ v ≠ lit "false" ∧ v ≠ lit "{" ∧ v ≠ lit "[" ∧ v ≠ lit "@map"

theorem comma_notKeyword (w : Bytes) : NotKeyword (w ++ [44]) := by
  have h : ∀ k : Bytes, k.getLast? ≠ some 44 → w ++ [44] ≠ k := by
    rintro k hk rfl
    simp at hk
  exact ⟨h _ (by decide), h _ (by decide), h _ (by decide), h _ (by decide), h _ (by decide), h _ (by decide)⟩

theorem hasPrefix_cons_ne {a c : UInt8} (h : c ≠ a) (p r : Bytes) : Str.hasPrefix (a :: p) (c :: r) = false := by
  simp only [Str.hasPrefix, List.isPrefixOf, Bool.and_eq_false_iff]
  exact .inl (beq_eq_false_iff_ne.2 fun h2 => h h2.symm)

/-- A byte that starts no string and no number. -/
def nameByte (c : UInt8) : Prop := c ≠ 0x22 ∧ c ≠ 96 ∧ c ≠ 45 ∧ c ≠ 43 ∧ ¬ (48 ≤ c ∧ c ≤ 57)

instance (c : UInt8) : Decidable (nameByte c) := by unfold nameByte; infer_instance

theorem trimLast_cons (c : UInt8) (r : Bytes) : trimLast 44 (c :: r) = [] ∨ ∃ r', trimLast 44 (c :: r) = c :: r' := by
  unfold trimLast
  split
  · cases r with
    | nil => exact .inl rfl
    | cons d r => exact .inr ⟨_, rfl⟩
  · exact .inr ⟨_, rfl⟩

theorem isNumber_name {c : UInt8} (hc : nameByte c) (r : Bytes) : isNumber (c :: r) = false := by
  obtain ⟨_, _, h1, h2, h3⟩ := hc
  unfold isNumber
  rcases trimLast_cons c r with h | ⟨r', h⟩
  · rw [h]
  · rw [h]
    simp only
    rw [if_neg (by simp [h1, h2])]
    simpa using h3

/-- Any other word is taken for an enumerator. -/
theorem fieldValue_enum {x : Ext} {st : List Frame} {name : Str} {raw : Bytes} {c : UInt8} {r : Bytes} {its : List Bytes}
    (hk : NotKeyword (c :: r)) (hc : nameByte c) :
    fieldValue x st name raw (c :: r) its =
      ([{ kind := .field, name, isEnum := true, enumName := trimLast 44 (c :: r), bytes := trimLast 44 (c :: r) }], some st) := by
  obtain ⟨k1, k2, k3, k4, k5, k6⟩ := hk
  have h0 : c ≠ 48 := by
    rintro rfl
    exact hc.2.2.2.2 (by decide)
  unfold fieldValue
  rw [if_neg k1, if_neg k2, if_neg k3, if_neg k4, if_neg k5, if_neg k6]
  rw [hasPrefix_cons_ne hc.1, show lit "`" = 96 :: [] from rfl, hasPrefix_cons_ne hc.2.1,
    show lit "0x" = 48 :: [120] from rfl, show lit "0X" = 48 :: [88] from rfl, hasPrefix_cons_ne h0, hasPrefix_cons_ne h0,
    isNumber_name hc]
  rfl

/-- The text of a number. -/
def NumText (w : Bytes) : Prop :=
  (∀ c ∈ w, floatByte c) ∧ ∃ c r, w = c :: r ∧ ((48 ≤ c ∧ c ≤ 57) ∨ (c = 45 ∧ ∃ c' r', r = c' :: r' ∧ 48 ≤ c' ∧ c' ≤ 57))

theorem floatByte_graphic {c : UInt8} (h : floatByte c) : 0x21 ≤ c.toNat ∧ c.toNat ≤ 0x7E := by
  rcases h with ⟨h1, h2⟩ | rfl | rfl | rfl | rfl
  · have h1 := UInt8.le_iff_toNat_le.1 h1
    have h2 := UInt8.le_iff_toNat_le.1 h2
    simp at h1 h2
    omega
  all_goals decide

theorem numText_solid {w : Bytes} (h : NumText w) : Solid w := solid_graphic fun c hc => floatByte_graphic (h.1 c hc)

theorem numText_no_comma {w : Bytes} (h : NumText w) : endsWith 44 w = false := by
  unfold endsWith
  rw [beq_eq_false_iff_ne]
  intro h2
  have h3 := h.1 44 (List.mem_of_getLast? h2)
  rcases h3 with ⟨h3, _⟩ | h3 | h3 | h3 | h3 <;> exact absurd h3 (by decide)

theorem fieldValue_number {x : Ext} {st : List Frame} {name : Str} {raw : Bytes} {w : Bytes} {its : List Bytes}
    (hw : NumText w) : fieldValue x st name raw (w ++ [44]) its = one (numberTok x name w) st := by
  obtain ⟨k1, k2, k3, k4, k5, k6⟩ := comma_notKeyword w
  have hn := numText_no_comma hw
  unfold fieldValue
  rw [if_neg k1, if_neg k2, if_neg k3, if_neg k4, if_neg k5, if_neg k6, trimLast_append]
  clear k1 k2 k3 k4 k5 k6
  obtain ⟨hb, c, r, rfl, hc⟩ := hw
  have h1 : c ≠ 0x22 ∧ c ≠ 96 := by
    rcases hc with ⟨hc, _⟩ | ⟨rfl, _⟩
    · exact ⟨fun h => absurd hc (h ▸ by decide), fun h => by subst h; rename_i h2; exact absurd h2 (by decide)⟩
    · decide
  have hx : ∀ y : UInt8, ¬ floatByte y → y ≠ 44 → Str.hasPrefix [48, y] (c :: r ++ [44]) = false := by
    intro y hy hy2
    cases r with
    | nil => simp [Str.hasPrefix, List.isPrefixOf, hy2]
    | cons d r =>
      have : d ≠ y := by
        rintro rfl
        exact hy (hb d (by simp))
      simp [Str.hasPrefix, List.isPrefixOf, this.symm]
  have hnum : isNumber (c :: r ++ [44]) = true := by
    unfold isNumber
    simp only [trimLast_append]
    rcases hc with ⟨hc1, hc2⟩ | ⟨rfl, c', r', rfl, h1, h2⟩
    · rw [if_neg]
      · simp [hc1, hc2]
      · simp only [Bool.or_eq_true, beq_iff_eq, not_or]
        constructor
        · rintro rfl; exact absurd hc1 (by decide)
        · rintro rfl; exact absurd hc1 (by decide)
    · simp [h1, h2]
  rw [List.cons_append, hasPrefix_cons_ne h1.1, show lit "`" = 96 :: [] from rfl, hasPrefix_cons_ne h1.2, ← List.cons_append,
    show lit "0x" = [48, 120] from rfl, show lit "0X" = [48, 88] from rfl,
    hx 120 (by unfold floatByte; decide) (by decide), hx 88 (by unfold floatByte; decide) (by decide), hnum]
  rfl

theorem decimal_numText (n : Nat) : NumText (decimal n) := by
  refine ⟨fun c hc => .inl (Claw.Idl.decimal_digit n c hc), ?_⟩
  cases h : decimal n with
  | nil => exact absurd h (Claw.Idl.decimal_ne_nil n)
  | cons c r => exact ⟨c, r, rfl, .inl (Claw.Idl.decimal_digit n c (by rw [h]; simp))⟩

theorem minus_numText (n : Nat) : NumText (45 :: decimal n) := by
  refine ⟨fun c hc => ?_, 45, _, rfl, .inr ⟨rfl, ?_⟩⟩
  · rcases List.mem_cons.1 hc with rfl | hc
    · exact .inr (.inr (.inl rfl))
    · exact .inl (Claw.Idl.decimal_digit n c hc)
  · cases h : decimal n with
    | nil => exact absurd h (Claw.Idl.decimal_ne_nil n)
    | cons c r => exact ⟨c, r, rfl, Claw.Idl.decimal_digit n c (by rw [h]; simp)⟩

theorem numeral_numText (n : Int) : NumText (numeral n) := by
  cases n with
  | ofNat n => exact decimal_numText n
  | negSucc n => exact minus_numText (n + 1)

theorem not_looksFloat {w : Bytes} (h : ∀ c ∈ w, (48 ≤ c ∧ c ≤ 57) ∨ c = 45) : looksFloat w = false := by
  have key : ∀ y : UInt8, ¬ ((48 ≤ y ∧ y ≤ 57) ∨ y = 45) → w.contains y = false := by
    intro y hy
    rw [List.contains_eq_mem, decide_eq_false_iff_not]
    exact fun h2 => hy (h y h2)
  unfold looksFloat
  rw [key 46 (by decide), key 101 (by decide), key 69 (by decide)]
  rfl

theorem numeral_digits (n : Int) : ∀ c ∈ numeral n, (48 ≤ c ∧ c ≤ 57) ∨ c = 45 := by
  intro c hc
  cases n with
  | ofNat n => exact .inl (Claw.Idl.decimal_digit n c hc)
  | negSucc n =>
    rcases List.mem_cons.1 hc with rfl | hc
    · exact .inr rfl
    · exact .inl (Claw.Idl.decimal_digit _ c hc)

theorem numberTok_numeral (x : Ext) (name : Str) (n : Int) :
    numberTok x name (numeral n) = if -2 ^ 63 ≤ n ∧ n < 2 ^ 63 then
      some { kind := .field, name, data := (Int64.ofInt n).toUInt64 } else none := by
  unfold numberTok
  simp only [trimLast_other (numText_no_comma (numeral_numText n)), not_looksFloat (numeral_digits n), Bool.false_eq_true,
    if_false, Claw.Idl.atoi_numeral]
  split <;> rfl

theorem unhex_hexOf : ∀ b : Bytes, unhex (hexOf b) = some b := by
  have h : ∀ n : Fin 256, hexVal (hexDigit (n.val / 16)) = some (n.val / 16) ∧
      hexVal (hexDigit (n.val % 16)) = some (n.val % 16) := by decide +kernel
  intro b
  induction b with
  | nil => rfl
  | cons c b ih =>
    have h1 := h ⟨c.toNat, c.toNat_lt⟩
    have : hexOf (c :: b) = hexDigit (c.toNat / 16) :: hexDigit (c.toNat % 16) :: hexOf b := rfl
    rw [this, unhex]
    rw [h1.1, h1.2, ih]
    have h2 : c.toNat / 16 * 16 + c.toNat % 16 = c.toNat := by omega
    have h3 : (c.toNat / 16 * 16 + c.toNat % 16).toUInt8 = c := by
      rw [h2]
      exact UInt8.toNat_inj.1 (toUInt8_toNat (by have := c.toNat_lt; simpa using this))
    show some ((c.toNat / 16 * 16 + c.toNat % 16).toUInt8 :: b) = _
    rw [h3]

theorem hexDigit_graphic {n : Nat} (h : n < 16) : 0x30 ≤ (hexDigit n).toNat ∧ (hexDigit n).toNat ≤ 0x66 ∧ hexDigit n ≠ 88 := by
  have : ∀ n : Fin 16, 0x30 ≤ (hexDigit n.val).toNat ∧ (hexDigit n.val).toNat ≤ 0x66 ∧ hexDigit n.val ≠ 88 := by decide
  exact this ⟨n, h⟩

theorem hexOf_bytes {b : Bytes} : ∀ c ∈ hexOf b, 0x30 ≤ c.toNat ∧ c.toNat ≤ 0x66 ∧ c ≠ 88 := by
  intro c hc
  unfold hexOf at hc
  obtain ⟨y, _, hc⟩ := List.mem_flatMap.1 hc
  have := y.toNat_lt
  simp only [List.mem_cons, List.not_mem_nil, or_false] at hc
  rcases hc with rfl | rfl
  · exact hexDigit_graphic (by simp at this; omega)
  · exact hexDigit_graphic (by omega)

theorem fieldValue_hex {x : Ext} {st : List Frame} {name : Str} {raw : Bytes} {b : Bytes} {its : List Bytes} :
    fieldValue x st name raw (lit "0x" ++ hexOf b ++ [44]) its =
      ([{ kind := .field, name, type := .bytes, bytes := b }], some st) := by
  obtain ⟨k1, k2, k3, k4, k5, k6⟩ := comma_notKeyword (lit "0x" ++ hexOf b)
  unfold fieldValue
  rw [if_neg k1, if_neg k2, if_neg k3, if_neg k4, if_neg k5, if_neg k6]
  clear k1 k2 k3 k4 k5 k6
  have h1 : lit "0x" ++ hexOf b ++ [44] = 48 :: 120 :: (hexOf b ++ [44]) := rfl
  have h2 : trimPrefix (lit "0x") (48 :: 120 :: (hexOf b ++ [44])) = hexOf b ++ [44] := rfl
  have h3 : Str.hasPrefix (lit "0X") (hexOf b ++ [44]) = false := by
    cases b with
    | nil => rfl
    | cons c b =>
      have h4 : hexOf (c :: b) = hexDigit (c.toNat / 16) :: hexDigit (c.toNat % 16) :: hexOf b := rfl
      have h5 := (hexOf_bytes (b := c :: b) (hexDigit (c.toNat % 16)) (by rw [h4]; simp)).2.2
      rw [h4]
      simp [Str.hasPrefix, lit, List.isPrefixOf, h5.symm]
  have h4 : trimPrefix (lit "0X") (hexOf b ++ [44]) = hexOf b ++ [44] := by
    unfold trimPrefix
    rw [h3]
    rfl
  rw [h1, h2, h4, trimLast_append, unhex_hexOf]
  rfl

theorem b64char_graphic {n : Nat} (h : n < 64) : 0x21 ≤ (b64char n).toNat ∧ (b64char n).toNat ≤ 0x7E ∧ b64char n ≠ 0x22 ∧
    b64char n ≠ 0x5C := by
  have : ∀ n : Fin 64, 0x21 ≤ (b64char n.val).toNat ∧ (b64char n.val).toNat ≤ 0x7E ∧ b64char n.val ≠ 0x22 ∧
    b64char n.val ≠ 0x5C := by decide
  exact this ⟨n, h⟩

theorem base64_bytes : ∀ (b : Bytes), ∀ c ∈ base64 b, 0x21 ≤ c.toNat ∧ c.toNat ≤ 0x7E ∧ c ≠ 0x22 ∧ c ≠ 0x5C
  | [] => by simp [base64]
  | [a] => by
    have := a.toNat_lt
    intro c hc
    simp only [base64, List.mem_cons, List.not_mem_nil, or_false] at hc
    rcases hc with rfl | rfl | rfl | rfl
    · exact b64char_graphic (by omega)
    · exact b64char_graphic (by omega)
    · decide
    · decide
  | [a, b] => by
    have := a.toNat_lt
    have := b.toNat_lt
    intro c hc
    simp only [base64, List.mem_cons, List.not_mem_nil, or_false] at hc
    rcases hc with rfl | rfl | rfl | rfl
    · exact b64char_graphic (by omega)
    · exact b64char_graphic (by omega)
    · exact b64char_graphic (by omega)
    · decide
  | a :: b :: d :: r => by
    have := a.toNat_lt
    have := b.toNat_lt
    have := d.toNat_lt
    have ih := base64_bytes r
    intro c hc
    simp only [base64, List.mem_cons] at hc
    rcases hc with rfl | rfl | rfl | rfl | hc
    · exact b64char_graphic (by omega)
    · exact b64char_graphic (by omega)
    · exact b64char_graphic (by omega)
    · exact b64char_graphic (by omega)
    · exact ih c hc

/-- A quoted word. -/
theorem fieldValue_quoted {x : Ext} {st : List Frame} {name : Str} {raw : Bytes} {r : Bytes} {its : List Bytes}
    (hk : NotKeyword (0x22 :: r)) : fieldValue x st name raw (0x22 :: r) its =
      one ((quotedField (0x22 :: r) raw).map fun s => { kind := .field, name, type := .string, bytes := s }) st := by
  obtain ⟨k1, k2, k3, k4, k5, k6⟩ := hk
  unfold fieldValue
  rw [if_neg k1, if_neg k2, if_neg k3, if_neg k4, if_neg k5, if_neg k6]
  rfl

theorem quote_notKeyword (r : Bytes) : NotKeyword (0x22 :: r) := by
  have h : ∀ k : Bytes, k.head? ≠ some 0x22 → 0x22 :: r ≠ k := by
    rintro k hk rfl
    simp at hk
  exact ⟨h _ (by decide), h _ (by decide), h _ (by decide), h _ (by decide), h _ (by decide), h _ (by decide)⟩

/-- A complete quoted word. -/
theorem quotedField_word {r raw : Bytes} : quotedField (0x22 :: (r ++ [0x22]) ++ [44]) raw = unquote (0x22 :: (r ++ [0x22])) := by
  unfold quotedField
  simp only [trimLast_append]
  rw [← List.cons_append, endsWith_append, if_pos (by simp)]

theorem fieldValue_base64 {x : Ext} {st : List Frame} {name : Str} {raw : Bytes} {b : Bytes} {its : List Bytes} :
    fieldValue x st name raw (0x22 :: base64 b ++ [0x22] ++ [44]) its =
      ([{ kind := .field, name, type := .string, bytes := base64 b }], some st) := by
  have h1 : unquote (0x22 :: (base64 b ++ [0x22])) = some (base64 b) := by
    simp only [unquote, endsWith_append, if_true, List.dropLast_concat]
    have := unescape_high (base64 b) (fun c hc => (base64_bytes b c hc).2.2.2) []
    rw [List.append_nil] at this
    rw [this]
    simp [unescape]
  rw [List.cons_append, List.cons_append, fieldValue_quoted (quote_notKeyword _)]
  have := quotedField_word (r := base64 b) (raw := raw)
  rw [List.cons_append] at this
  rw [this, h1]
  rfl

end Claw.Text
