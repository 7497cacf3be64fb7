import Verif.Model.Bits
import Verif.Lemmas.Bytes

/-!
# C51 bit utilities, C53 byte utilities
-/

namespace Claw.Bits

open Claw

/-- Bit `i` of `((1 << width) - 1) << start`. -/
theorem mask64_bit (start stop i : Nat) (h : start < stop) (hs : stop ≤ 64) :
    (mask64 start stop).getLsbD i = (decide (start ≤ i) && decide (i < stop)) := by
  unfold mask64
  by_cases hw : stop - start = 64
  · have h0 : start = 0 := by omega
    have h1 : stop = 64 := by omega
    subst h0; subst h1
    rw [if_pos hw, BitVec.getLsbD_allOnes]
    simp
  · simp only [if_neg hw]
    have hw' : stop - start < 64 := by omega
    have e : (1#64 <<< (stop - start)) - 1#64 = BitVec.ofNat 64 (2 ^ (stop - start) - 1) := by
      apply BitVec.eq_of_toNat_eq
      have hp : 2 ^ (stop - start) < 2 ^ 64 := Nat.pow_lt_pow_right (by omega) hw'
      have hp1 : 0 < 2 ^ (stop - start) := Nat.pow_pos (by omega)
      simp only [BitVec.toNat_sub, BitVec.toNat_shiftLeft, BitVec.toNat_ofNat, Nat.shiftLeft_eq]
      rw [Nat.mod_eq_of_lt (a := 1) (by omega), Nat.one_mul, Nat.mod_eq_of_lt hp]
      omega
    rw [e, BitVec.getLsbD_shiftLeft, BitVec.getLsbD_ofNat, Nat.testBit_two_pow_sub_one]
    by_cases h1 : start ≤ i <;> by_cases h2 : i < stop <;> simp [h1, h2] <;> omega

/-- C51 for the mask: exactly the bits from `start` to before `stop`, and a panic exactly for an
empty range or one beyond 64 bits. -/
theorem C51_mask (w start stop : Nat) :
    (start < stop ∧ stop ≤ 64 → ∃ m, mask w start stop = .ok m ∧
      ∀ i, m.getLsbD i = (decide (i < w) && decide (start ≤ i) && decide (i < stop))) ∧
    (¬ (start < stop ∧ stop ≤ 64) → mask w start stop = .panic) := by
  constructor
  · intro ⟨h, hs⟩
    refine ⟨(mask64 start stop).setWidth w, ?_, ?_⟩
    · simp only [mask, setBits]
      rw [if_neg (by omega), if_neg (by omega)]
      simp
    · intro i
      rw [BitVec.getLsbD_setWidth, mask64_bit _ _ _ h hs, Bool.and_assoc]
  · intro h
    simp only [mask, setBits]
    by_cases h1 : start ≥ stop
    · rw [if_pos h1]
    · rw [if_neg h1, if_pos (by omega)]

/-- C51 for single bits: the three functions agree with each other and touch no other bit. -/
theorem C51_single_bits {w : Nat} (s : BitVec w) (p : Nat) (v : Bool) :
    (p < w → getBit s p = .ok (s.getLsbD p) ∧
      ∃ s', setBit s p v = .ok s' ∧ (∀ i, s'.getLsbD i = if i = p then v else s.getLsbD i) ∧
        (v = false → clearBit s p = s')) ∧
    (0 < w → p ≥ w → getBit s p = .panic ∧ setBit s p v = .panic ∧ clearBit s p = s) := by
  constructor
  · intro hp
    have hne : ¬ p > w - 1 := by omega
    constructor
    · simp only [getBit, if_neg hne]
      congr 1
      cases hb : s.getLsbD p with
      | true =>
        rw [bne_iff_ne]
        intro h0
        have := congrArg (fun x => BitVec.getLsbD x p) h0
        rw [BitVec.getLsbD_and, hb, BitVec.getLsbD_shiftLeft, BitVec.getLsbD_one, BitVec.getLsbD_zero] at this
        simp [hp] at this
        omega
      | false =>
        rw [bne_eq_false_iff_eq]
        apply BitVec.eq_of_getLsbD_eq
        intro i hi
        simp only [BitVec.getLsbD_and, BitVec.getLsbD_shiftLeft, BitVec.getLsbD_one,
          BitVec.getLsbD_zero]
        by_cases hip : i = p
        · subst hip; simp [hb]
        · by_cases hlt : i < p
          · simp [hlt]
          · have : ¬ (i - p = 0) := by omega
            simp [this]
    · cases v with
      | true =>
        refine ⟨s ||| (1#w <<< p), by simp [setBit, if_neg hne], ?_, by simp⟩
        intro i
        simp only [BitVec.getLsbD_or, BitVec.getLsbD_shiftLeft, BitVec.getLsbD_one]
        by_cases hip : i = p
        · subst hip; simp [hp]; omega
        · by_cases hlt : i < p
          · simp [hlt, hip]
          · have : ¬ (i - p = 0) := by omega
            simp [this, hip]
      | false =>
        refine ⟨s &&& ~~~(1#w <<< p), by simp [setBit, if_neg hne], ?_, fun _ => rfl⟩
        intro i
        simp only [BitVec.getLsbD_and, BitVec.getLsbD_not, BitVec.getLsbD_shiftLeft,
          BitVec.getLsbD_one]
        by_cases hip : i = p
        · subst hip; simp [hp]; omega
        · by_cases hlt : i < p
          · simp [hlt, hip]
            intro hs; exact BitVec.lt_of_getLsbD hs
          · have : ¬ (i - p = 0) := by omega
            simp [this, hip]
            intro hs; exact BitVec.lt_of_getLsbD hs
  · intro hw hp
    have h1 : p > w - 1 := by omega
    refine ⟨by simp [getBit, h1], by simp [setBit, h1], ?_⟩
    simp only [clearBit]
    apply BitVec.eq_of_getLsbD_eq
    intro i hi
    have : i < p := by omega
    simp [this, hi]

/-- C51 for clearing a range inside 64 bits: these bits are off, the others as before. -/
theorem C51_clear_range_partial {w : Nat} (s : BitVec w) (start stop : Nat) (h : stop ≤ 64) (i : Nat) :
    (clearBits s start stop).getLsbD i = (s.getLsbD i && !(decide (start ≤ i) && decide (i < stop))) := by
  unfold clearBits
  by_cases hs : start ≥ stop
  · rw [if_pos hs]
    by_cases h1 : start ≤ i
    · have : ¬ i < stop := by omega
      simp [this]
    · simp [h1]
  · rw [if_neg hs, BitVec.getLsbD_and, BitVec.getLsbD_not, BitVec.getLsbD_setWidth,
      mask64_bit _ _ _ (by omega) h]
    by_cases hi : i < w
    · simp [hi]
    · have : s.getLsbD i = false := BitVec.getLsbD_of_ge s i (by omega)
      simp [this]

/-- Missing in `C51_clear_range_partial`: a range of 64 bits that does not begin at 0 also clears the
bits below it. -/
theorem C51_clear_range_too_much :
    (clearBits (1#64) 1 65).getLsbD 0 = false ∧ (1#64).getLsbD 0 = true := by decide

/-- C51 for values (the value fits the range, and the range is empty before): reading gives the value,
the other bits stay.  Without these two conditions see `C51_set_value_spills`. -/
theorem C51_set_value_partial {v w : Nat} (val : BitVec v) (store : BitVec w) (start stop : Nat)
    (h : start < stop) (h64 : stop ≤ 64) (hw : stop ≤ w) (hfit : ∀ i, stop - start ≤ i → val.getLsbD i = false)
    (hfree : ∀ i, start ≤ i → i < stop → store.getLsbD i = false) :
    ∃ s' m, setValue val store start stop = .ok s' ∧ mask w start stop = .ok m ∧
      getValue v s' m start = val ∧
      ∀ i, ¬ (start ≤ i ∧ i < stop) → s'.getLsbD i = store.getLsbD i := by
  obtain ⟨m, hm, hmb⟩ := (C51_mask w start stop).1 ⟨h, h64⟩
  refine ⟨_, m, by simp only [setValue]; rw [if_neg (by omega)], hm, ?_, ?_⟩
  · apply BitVec.eq_of_getLsbD_eq
    intro i hi
    simp only [getValue, BitVec.getLsbD_setWidth, BitVec.getLsbD_ushiftRight, BitVec.getLsbD_and,
      BitVec.getLsbD_or, BitVec.getLsbD_shiftLeft, hmb]
    by_cases hr : i < stop - start
    · have h1 : start + i < w := by omega
      have h2 : start + i < stop := by omega
      have h3 : i < w := by omega
      have h4 : start + i - start = i := by omega
      have h5 : ¬ start + i < start := by omega
      rw [hfree (start + i) (by omega) h2, h4]
      simp [hi, h1, h2, h3, h5]
    · have h2 : ¬ start + i < stop := by omega
      simp [h2, hfit i (by omega)]
  · intro i hi
    simp only [BitVec.getLsbD_or, BitVec.getLsbD_shiftLeft, BitVec.getLsbD_setWidth]
    by_cases h1 : i < start
    · simp [h1]
    · have : val.getLsbD (i - start) = false := hfit _ (by omega)
      simp [this]

/-- A value that does not fit runs over into the bits behind the range, and an old value is not
replaced but merged. -/
theorem C51_set_value_spills :
    setValue 3#8 0#8 0 1 = .ok 3#8 ∧ setValue 2#8 1#8 0 2 = .ok 3#8 ∧
    getValue 8 3#8 3#8 0 = 3#8 := by decide

/-- C51 for bytes: exactly the bytes of the range become 0, and a range beyond the slice panics. -/
theorem C51_clear_bytes (b : Bytes) (start stop : Nat) :
    (stop ≤ b.length → ∃ b', clearBytes b start stop = .ok b' ∧ b'.length = b.length ∧
      ∀ i, b'[i]? = if start ≤ i ∧ i < stop then (if i < b.length then some 0 else none) else b[i]?) ∧
    (b.length < stop → start < stop → clearBytes b start stop = .panic) := by
  have key : ∀ n i (b : Bytes),
      (i + n ≤ b.length → ∃ b', clearBytesLoop n i b = .ok b' ∧ b'.length = b.length ∧
        ∀ j, b'[j]? = if i ≤ j ∧ j < i + n then (if j < b.length then some 0 else none) else b[j]?) ∧
      (b.length < i + n → 0 < n → clearBytesLoop n i b = .panic) := by
    intro n
    induction n with
    | zero =>
      intro i b
      refine ⟨fun _ => ⟨b, rfl, rfl, fun j => ?_⟩, fun _ h => absurd h (by omega)⟩
      rw [if_neg (by omega)]
    | succ n ih =>
      intro i b
      simp only [clearBytesLoop]
      by_cases hi : i < b.length
      · rw [if_pos hi]
        obtain ⟨h1, h2⟩ := ih (i + 1) (b.set i 0)
        rw [List.length_set] at h1 h2
        constructor
        · intro h
          obtain ⟨b', e, hl, hb⟩ := h1 (by omega)
          refine ⟨b', e, hl, fun j => ?_⟩
          rw [hb j, List.getElem?_set]
          by_cases hj : i = j
          · subst hj
            rw [if_neg (by omega), if_pos (⟨by omega, by omega⟩ : i ≤ i ∧ i < i + (n + 1))]
            simp [hi]
          · by_cases hr : i + 1 ≤ j ∧ j < i + 1 + n
            · rw [if_pos hr, if_pos (⟨by omega, by omega⟩ : i ≤ j ∧ j < i + (n + 1))]
            · rw [if_neg hr, if_neg hj, if_neg (by omega : ¬ (i ≤ j ∧ j < i + (n + 1)))]
        · intro h _
          exact h2 (by omega) (by omega)
      · rw [if_neg hi]
        exact ⟨fun h => absurd h (by omega), fun _ _ => rfl⟩
  obtain ⟨h1, h2⟩ := key (stop - start) start b
  constructor
  · intro h
    by_cases hs : start ≤ stop
    · have e : start + (stop - start) = stop := by omega
      rw [e] at h1
      exact h1 h
    · refine ⟨b, ?_, rfl, fun i => by rw [if_neg (by omega)]⟩
      have : stop - start = 0 := by omega
      simp [clearBytes, this, clearBytesLoop]
  · intro h hs
    exact h2 (by omega) (by omega)

/-- Cases that meet the hypotheses. -/
example : mask 8 1 4 = .ok 14#8 ∧ setBit 5#8 1 true = .ok 7#8 ∧ clearBits 255#8 2 5 = 227#8 ∧
    setValue 5#8 3#16 4 8 = .ok 83#16 ∧ clearBytes [1, 2, 3, 4] 1 3 = .ok [1, 0, 0, 4] := by decide

end Claw.Bits

namespace Claw.Binary

open Claw

theorem goCopy_start (b src : Bytes) (h : src.length ≤ b.length) :
    goCopy b 0 src = src ++ b.drop src.length := by
  have := goCopy_fit [] (b.take src.length) (b.drop src.length) src (by simp; omega)
  simpa using this

/-- C53 for the functions named after their type: writing and reading gives the value back, the bytes
behind it stay. -/
theorem C53_direct_round_trip (t : ITy) (v : t.Val) (b : Bytes) :
    (t.size ≤ b.length → ∃ b', putDirect t b v = .ok b' ∧ getDirect t b' = .ok v ∧
      b'.length = b.length ∧ b'.drop t.size = b.drop t.size) ∧
    (b.length < t.size → putDirect t b v = .panic ∧ getDirect t b = .panic) ∧
    ∃ w, putBufferDirect t v = .ok w ∧ w.length = t.size ∧ getDirect t w = .ok v := by
  have hv : v.toNat < 256 ^ t.size := by
    have := v.isLt
    rw [show (256 : Nat) = 2 ^ 8 from rfl, ← Nat.pow_mul]
    exact this
  have main : ∀ b : Bytes, t.size ≤ b.length → ∃ b', putDirect t b v = .ok b' ∧ getDirect t b' = .ok v ∧
      b'.length = b.length ∧ b'.drop t.size = b.drop t.size := by
    intro b hb
    have e : goCopy b 0 (putLE t.size v.toNat) = putLE t.size v.toNat ++ b.drop t.size := by
      exact goCopy_start b _ (by rw [putLE_length]; exact hb) |>.trans (by rw [putLE_length])
    refine ⟨putLE t.size v.toNat ++ b.drop t.size, ?_, ?_, ?_, ?_⟩
    · simp only [putDirect, putUint]
      rw [if_neg (by omega), e]
    · simp only [getDirect, get]
      rw [if_neg (by simp [putLE_length]), List.take_append_of_le_length (by simp [putLE_length]),
        List.take_of_length_le (by simp [putLE_length]), getLE_putLE_of_lt hv]
      congr 1
      apply BitVec.eq_of_toNat_eq
      simp [Nat.mod_eq_of_lt v.isLt]
    · simp [putLE_length]; omega
    · rw [List.drop_append_of_le_length (by simp [putLE_length]), List.drop_of_length_le (by simp [putLE_length])]
      simp
  refine ⟨main b, ?_, ?_⟩
  · intro h
    exact ⟨by simp [putDirect, putUint, h], by simp [getDirect, get, h]⟩
  · obtain ⟨b', h1, h2, h3, _⟩ := main (zeros t.size) (by simp [zeros])
    exact ⟨b', h1, by rw [h3]; simp [zeros], h2⟩

/-- C53 for the generic `Put` (unsigned and 64-bit types only): as above.  For the signed types below
64 bits see `C53_put_signed`. -/
theorem C53_put_round_trip_partial (t : ITy) (v : t.Val) (b : Bytes)
    (ht : t.signed = false ∨ t = .i64) (hb : t.size ≤ b.length) :
    ∃ b', put t b v = .ok b' ∧ get t b' = .ok v ∧ b'.drop t.size = b.drop t.size := by
  have key : put t b v = putDirect t b v := by
    have e64 : ∀ x : BitVec 64, (x.signExtend 64) = x ∧ x.setWidth 64 = x :=
      fun x => ⟨BitVec.signExtend_eq x, BitVec.setWidth_eq x⟩
    match t, v, ht with
    | .u8, v, _ => rfl
    | .u16, v, _ => rfl
    | .u32, v, _ => rfl
    | .u64, v, _ =>
      exact congrArg (fun x : BitVec 64 => putUint 8 b x.toNat) (e64 v).2
    | .i64, v, _ =>
      exact congrArg (fun x : BitVec 64 => putUint 8 b x.toNat) (e64 v).1
    | .i8, _, h => simp [ITy.signed] at h
    | .i16, _, h => simp [ITy.signed] at h
    | .i32, _, h => simp [ITy.signed] at h
  obtain ⟨b', h1, h2, _, h4⟩ := (C53_direct_round_trip t v b).1 hb
  exact ⟨b', key ▸ h1, h2, h4⟩

/-- The generic `Put` of an int8, int16 or int32 needs 8 bytes: it panics on a buffer of the size of
the type and overwrites what follows in a longer one, for every value. -/
theorem C53_put_signed (t : ITy) (v : t.Val) (b : Bytes) (ht : t.signed = true) (h64 : t ≠ .i64) :
    (b.length < 8 → put t b v = .panic) ∧
    (8 ≤ b.length → put t b v = .ok (putLE 8 (v.signExtend 64).toNat ++ b.drop 8)) := by
  have e : put t b v = putUint 8 b (v.signExtend 64).toNat := by
    cases t <;> simp [ITy.signed] at ht h64 <;> simp [put, toU64, ITy.signed]
  constructor
  · intro h; simp [e, putUint, h]
  · intro h
    rw [e]
    simp only [putUint]
    rw [if_neg (by omega), goCopy_start _ _ (by rw [putLE_length]; exact h), putLE_length]

/-- The generic `PutBuffer` works for int64 only and panics for every value of any other type. -/
theorem C53_put_buffer (t : ITy) (v : t.Val) :
    (t ≠ .i64 → putBuffer t v = .panic) ∧
    (t = .i64 → ∃ b, putBuffer t v = .ok b ∧ get t b = .ok v) := by
  constructor
  · intro h
    cases t <;> simp [putBuffer, put, putUint, zeros] at h ⊢
  · intro h
    subst h
    obtain ⟨b', h1, h2, _⟩ := C53_put_round_trip_partial .i64 v (zeros 8) (Or.inr rfl) (by decide)
    exact ⟨b', h1, h2⟩

/-- Cases that meet the hypotheses, and one where the following byte is lost. -/
example : put .u16 [0, 0, 7] (0x1234 : BitVec 16) = .ok [0x34, 0x12, 7] ∧
    get .u16 [0x34, 0x12, 7] = .ok (0x1234 : BitVec 16) ∧
    put .i8 [1, 2, 3, 4, 5, 6, 7, 8] (0xFE : BitVec 8) =
      .ok [254, 255, 255, 255, 255, 255, 255, 255] := by decide

end Claw.Binary
