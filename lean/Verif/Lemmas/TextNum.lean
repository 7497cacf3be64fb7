import Verif.Lemmas.TextQuoted

/-!
# Scalars as words of a line
-/

namespace Claw.Text

open Claw.Idl (FT Out decimal numeral atoi)
open Claw.Tok
open Claw.Json

set_option linter.unusedSimpArgs false

theorem atoi_minus (n : Nat) (h : n ≤ 2 ^ 63) : atoi (45 :: decimal n) = some (-(n : Int)) := by
  simp only [atoi, Claw.Idl.digits_decimal, Option.bind_some, if_pos h]

/-- The number of units in a float, with its sign. -/
theorem floatParts_sign (t : FT) (d : UInt64) :
    (floatParts t d).1 = if signBit t d then -((floatParts t d).1.natAbs : Int) else (floatParts t d).1.natAbs := by
  cases t
  case float32 =>
    simp only [floatParts, signBit, F32.value]
    by_cases h : d.toUInt32.toNat < 2 ^ 31
    · have h2 : ¬ 2 ^ 31 ≤ d.toUInt32.toNat := by omega
      simp only [h, h2, if_true, decide_false, Bool.false_eq_true, if_false, Int.natAbs_natCast]
    · have h2 : 2 ^ 31 ≤ d.toUInt32.toNat := by omega
      simp only [h, h2, if_false, decide_true, if_true, Int.natAbs_neg, Int.natAbs_natCast]
  all_goals
    simp only [floatParts, signBit, F64.value]
    by_cases h : d.toNat < 2 ^ 63
    · have h2 : ¬ 2 ^ 63 ≤ d.toNat := by omega
      simp only [h, h2, if_true, decide_false, Bool.false_eq_true, if_false, Int.natAbs_natCast]
    · have h2 : 2 ^ 63 ≤ d.toNat := by omega
      simp only [h, h2, if_false, decide_true, if_true, Int.natAbs_neg, Int.natAbs_natCast]

/-- The whole number of a float. -/
theorem whole_tdiv (t : FT) (d : UInt64) : (floatParts t d).1.tdiv (floatParts t d).2 =
    if signBit t d then -(((floatParts t d).1.natAbs / (floatParts t d).2 : Nat) : Int)
    else (((floatParts t d).1.natAbs / (floatParts t d).2 : Nat) : Int) := by
  have h := floatParts_sign t d
  generalize floatParts t d = p at *
  generalize signBit t d = b at *
  obtain ⟨a, q⟩ := p
  simp only at *
  cases b with
  | true =>
    simp only [if_true] at *
    generalize a.natAbs = m at *
    subst h
    rw [Int.neg_tdiv]
    simp
  | false =>
    simp only [Bool.false_eq_true, if_false] at *
    generalize a.natAbs = m at *
    subst h
    simp

theorem whole_small {t : FT} {d : UInt64} (h : wholeFloat t d = true) :
    (floatParts t d).1.natAbs / (floatParts t d).2 < 10 ^ 6 := by
  unfold wholeFloat at h
  generalize floatParts t d = p at *
  obtain ⟨a, q⟩ := p
  simp only [Bool.and_eq_true, decide_eq_true_eq] at *
  apply Nat.div_lt_of_lt_mul
  rw [Nat.mul_comm]
  exact h.2

/-- A word that is a name, for a field of a scalar type. -/
theorem fieldValue_word {x : Ext} {st : List Frame} {name : Str} {raw : Bytes} {w : Bytes} {its : List Bytes}
    (hw : ∀ c r, w = c :: r → nameByte c) : fieldValue x st name raw (w ++ [44]) its =
      ([{ kind := .field, name, isEnum := true, enumName := w, bytes := w }], some st) := by
  cases w with
  | nil =>
    have := fieldValue_enum (x := x) (st := st) (name := name) (raw := raw) (its := its) (c := 44) (r := [])
      (comma_notKeyword []) (by decide)
    simpa [trimLast, endsWith] using this
  | cons c r =>
    have := fieldValue_enum (x := x) (st := st) (name := name) (raw := raw) (its := its) (c := c) (r := r ++ [44])
      (by rw [← List.cons_append]; exact comma_notKeyword (c :: r)) (hw c r rfl)
    rw [← List.cons_append, trimLast_append] at this
    exact this

theorem ident_nameByte {n : Str} (h : n = [] ∨ Ident n) : ∀ c r, n = c :: r → nameByte c := by
  rintro c r rfl
  rcases h with h | h
  · simp at h
  · obtain ⟨c', r', h1, h2, h3⟩ := ident_head h
    simp only [List.cons.injEq] at h1
    obtain ⟨rfl, rfl⟩ := h1
    refine ⟨identByte_ne h2 (by decide), identByte_ne h2 (by decide), identByte_ne h2 (by decide),
      identByte_ne h2 (by decide), fun h4 => h3 ?_⟩
    exact ⟨by have := UInt8.le_iff_toNat_le.1 h4.1; simpa using this, by have := UInt8.le_iff_toNat_le.1 h4.2; simpa using this⟩

/-- A scalar field that can be read. -/
def ReadsAs (x : Ext) (name : Str) (t : FT) (e : Option EnumT) (w : Bytes) (d : UInt64) : Prop :=
  Solid w ∧ ∀ st raw its, ∃ tok, fieldValue x st name raw (w ++ [44]) its = ([tok], some st) ∧ tok.kind = .field ∧
    tok.name = name ∧ tokNum t e tok = d

theorem readsAs_number {x : Ext} {name : Str} {t : FT} {e : Option EnumT} {w : Bytes} {b d : UInt64} {ft : FT}
    (hw : NumText w) (hn : numberTok x name w = some { kind := .field, name, type := ft, data := b }) (hd : norm t b = d) :
    ReadsAs x name t e w d := by
  refine ⟨numText_solid hw, fun st raw its => ⟨_, by rw [fieldValue_number hw, hn]; rfl, rfl, rfl, ?_⟩⟩
  cases e <;> simpa [tokNum] using hd

theorem readsAs_word {x : Ext} {name : Str} {t : FT} {w : Bytes}
    (hs : Solid w) (hw : ∀ c r, w = c :: r → nameByte c) (h0 : norm t 0 = 0) : ReadsAs x name t none w 0 :=
  ⟨hs, fun _ _ _ => ⟨_, fieldValue_word hw, rfl, rfl, by simpa [tokNum] using h0⟩⟩

theorem readsAs_enum {x : Ext} {name : Str} {t : FT} {e : EnumT} {n : Str}
    (hw : n = [] ∨ Ident n) (h0 : norm t 0 = 0) : ReadsAs x name t (some e) n (if n = [] then 0 else valueOf e n) := by
  refine ⟨?_, fun _ _ _ => ⟨_, fieldValue_word (ident_nameByte hw), rfl, rfl, ?_⟩⟩
  · rcases hw with rfl | hw
    · exact solid_nil
    · exact ident_solid hw
  · simp only [tokNum, ne_eq]
    by_cases h : n = []
    · simp [h, h0]
    · simp [h]

theorem numberTok_decimal {x : Ext} {name : Str} {n : Nat} (h : n < 2 ^ 63) :
    numberTok x name (decimal n) = some { kind := .field, name, data := n.toUInt64 } := by
  have := numberTok_numeral x name (.ofNat n)
  rw [show numeral (.ofNat n) = decimal n from rfl, if_pos (by simp; omega)] at this
  rw [this]
  congr 2

theorem readsAs_decimal {x : Ext} {name : Str} {t : FT} {e : Option EnumT} {d : UInt64} (h : Holds t d)
    (hs : d.toNat < 2 ^ 63) : ReadsAs x name t e (decimal d.toNat) d := by
  refine readsAs_number (decimal_numText _) (numberTok_decimal hs) ?_
  rw [show d.toNat.toUInt64 = d by simp]
  exact norm_holds h

theorem readsAs_signed {x : Ext} {name : Str} {t : FT} {e : Option EnumT} {d : UInt64} (h : Holds t d) :
    ReadsAs x name t e (numeral d.toInt64.toInt) d := by
  refine readsAs_number (b := d) (ft := .unknown) (numeral_numText _) ?_ (norm_holds h)
  rw [numberTok_numeral, if_pos ⟨by have := Int64.le_toInt d.toInt64; omega, by have := Int64.toInt_lt d.toInt64; omega⟩,
    Int64.ofInt_toInt]
  rfl

theorem digits_minus {w : Bytes} (h : ∀ c ∈ w, 48 ≤ c ∧ c ≤ 57) : ∀ c ∈ 45 :: w, (48 ≤ c ∧ c ≤ 57) ∨ c = 45 := by
  intro c hc
  rcases List.mem_cons.1 hc with rfl | hc
  · exact .inr rfl
  · exact .inl (h c hc)

theorem readsAs_whole {x : Ext} {name : Str} {t : FT} {e : Option EnumT} {d : UInt64} (h : wholeFloat t d = true) :
    ReadsAs x name t e ((if signBit t d then [45] else []) ++ decimal ((floatParts t d).1.natAbs / (floatParts t d).2))
      (norm t (Int64.ofInt ((floatParts t d).1.tdiv (floatParts t d).2)).toUInt64) := by
  rw [whole_tdiv]
  have hs := whole_small h
  generalize (floatParts t d).1.natAbs / (floatParts t d).2 = n at *
  cases signBit t d with
  | true =>
    simp only [if_true, List.singleton_append]
    refine readsAs_number (ft := .unknown) (minus_numText n) ?_ rfl
    unfold numberTok
    simp only [trimLast_other (numText_no_comma (minus_numText n)),
      not_looksFloat (digits_minus (Claw.Idl.decimal_digit n)), Bool.false_eq_true, if_false,
      atoi_minus n (by omega)]
    rfl
  | false =>
    simp only [Bool.false_eq_true, if_false, List.nil_append]
    refine readsAs_number (decimal_numText n) (numberTok_decimal (by omega)) ?_
    congr 1

theorem floatForm_numText {w : Bytes} (h : FloatForm w) : NumText w := ⟨h.1, h.2.2⟩

theorem readsAs_float {x : Ext} (hx : FloatsOk x) {name : Str} {t : FT} {e : Option EnumT} {d : UInt64}
    (hs : special t d = false) (hw : wholeFloat t d = false) :
    ReadsAs x name t e (x.floatText t d) (norm t ((x.parseFloat (x.floatText t d)).getD 0)) := by
  have hf := hx.form t d hs hw
  obtain ⟨b, hb⟩ := hx.parsed t d hs hw
  refine readsAs_number (b := b) (ft := .float64) (floatForm_numText hf) ?_ (by rw [hb]; rfl)
  unfold numberTok
  have hl : looksFloat (x.floatText t d) = true := by
    unfold looksFloat
    rcases hf.2.1 with h | h
    · simp [h]
    · simp [h]
  simp only [trimLast_other (numText_no_comma (floatForm_numText hf)), hl, if_true, hb]
  rfl

/-- The text of a scalar. -/
theorem scalar_reads {x : Ext} (hx : FloatsOk x) {o : Opts} {name : Str} {t : FT} {e : Option EnumT} {d : UInt64}
    (h : Holds t d) (he : ∀ e', e = some e' → NamedEnum e') (hr : numReadable t e d = true) (nm : Str) :
    ReadsAs x name t e (valueText x o (numTok nm t e d)) (backNum x o t e d) := by
  have hn := norm_holds h
  have h0 := norm_zero h
  cases e with
  | some e =>
    have hne := he e rfl d
    have key : valueText x o (numTok nm t (some e) d) =
        if o.useNums && (t == .uint8 || t == .uint16) then decimal d.toNat else nameOf e d := by
      cases t <;> simp only [Holds] at h <;> simp only [numTok, valueText, Bool.false_eq_true, if_false, if_true, hn]
    rw [key]
    simp only [backNum]
    by_cases hu : (o.useNums && (t == .uint8 || t == .uint16)) = true
    · rw [if_pos hu, if_pos hu]
      apply readsAs_decimal h
      simp only [Bool.and_eq_true, Bool.or_eq_true, beq_iff_eq] at hu
      rcases hu.2 with rfl | rfl
      · obtain ⟨v, rfl⟩ := h
        have := v.toNat_lt
        simp; omega
      · obtain ⟨v, rfl⟩ := h
        have := v.toNat_lt
        simp; omega
    · rw [if_neg hu, if_neg hu]
      exact readsAs_enum hne h0
  | none =>
    cases t <;> simp only [Holds] at h
    case bool =>
      rcases h with rfl | rfl
      · exact readsAs_word (w := lit "false") (solid_graphic (by decide)) (by rintro c r ⟨⟩; decide) h0
      · exact readsAs_word (w := lit "true") (solid_graphic (by decide)) (by rintro c r ⟨⟩; decide) h0
    case float32 =>
      simp only [numTok, valueText, Bool.false_eq_true, if_false, backNum, hn]
      split
      · exact readsAs_word (solid_graphic (by decide)) (by rintro c r ⟨⟩; decide) h0
      · rename_i hs
        unfold float
        split
        · rename_i hw; exact readsAs_whole hw
        · rename_i hw
          exact readsAs_float hx (by simpa using hs) (by simpa using hw)
    case float64 =>
      simp only [numTok, valueText, Bool.false_eq_true, if_false, backNum, hn]
      split
      · exact readsAs_word (solid_graphic (by decide)) (by rintro c r ⟨⟩; decide) h0
      · rename_i hs
        unfold float
        split
        · rename_i hw; exact readsAs_whole hw
        · rename_i hw
          exact readsAs_float hx (by simpa using hs) (by simpa using hw)
    case int8 =>
      simp only [numTok, valueText, Bool.false_eq_true, if_false, backNum, hn]
      exact readsAs_signed (t := .int8) h
    case int16 =>
      simp only [numTok, valueText, Bool.false_eq_true, if_false, backNum, hn]
      exact readsAs_signed (t := .int16) h
    case int32 =>
      simp only [numTok, valueText, Bool.false_eq_true, if_false, backNum, hn]
      exact readsAs_signed (t := .int32) h
    case int64 =>
      simp only [numTok, valueText, Bool.false_eq_true, if_false, backNum, hn]
      exact readsAs_signed (t := .int64) trivial
    case uint8 =>
      simp only [numTok, valueText, Bool.false_eq_true, if_false, backNum, hn]
      refine readsAs_decimal (t := .uint8) h ?_
      obtain ⟨v, rfl⟩ := h
      have := v.toNat_lt
      simp; omega
    case uint16 =>
      simp only [numTok, valueText, Bool.false_eq_true, if_false, backNum, hn]
      refine readsAs_decimal (t := .uint16) h ?_
      obtain ⟨v, rfl⟩ := h
      have := v.toNat_lt
      simp; omega
    case uint32 =>
      simp only [numTok, valueText, Bool.false_eq_true, if_false, backNum, hn]
      refine readsAs_decimal (t := .uint32) h ?_
      obtain ⟨v, rfl⟩ := h
      have := v.toNat_lt
      simp; omega
    case uint64 =>
      simp only [numTok, valueText, Bool.false_eq_true, if_false, backNum, hn]
      refine readsAs_decimal (t := .uint64) trivial ?_
      simp [numReadable] at hr
      omega

/-- A large number of type uint64. -/
theorem large_refused {x : Ext} {o : Opts} {name nm : Str} {t : FT} {e : Option EnumT} {d : UInt64}
    (hr : numReadable t e d = false) :
    Solid (valueText x o (numTok nm t e d)) ∧ valueText x o (numTok nm t e d) ≠ [] ∧
      ∀ st raw its, fieldValue x st name raw (valueText x o (numTok nm t e d) ++ [44]) its = stop := by
  cases e with
  | some e => simp [numReadable] at hr
  | none =>
    simp only [numReadable, Bool.not_eq_eq_eq_not, Bool.not_false, Bool.and_eq_true, beq_iff_eq, decide_eq_true_eq] at hr
    obtain ⟨rfl, hd⟩ := hr
    have hv : valueText x o (numTok nm .uint64 none d) = decimal d.toNat := by
      simp only [numTok, valueText, Bool.false_eq_true, if_false, norm]
    rw [hv]
    refine ⟨numText_solid (decimal_numText _), Claw.Idl.decimal_ne_nil _, fun st raw its => ?_⟩
    rw [fieldValue_number (decimal_numText _)]
    have := numberTok_numeral x name (.ofNat d.toNat)
    rw [show numeral (.ofNat d.toNat) = decimal d.toNat from rfl, if_neg (by simp; omega)] at this
    rw [this]
    rfl

end Claw.Text
