import Verif.Model.RpcReflect
import Verif.Lemmas.Idl
import Verif.Spec.Range

/-!
# Lemmas about address ranges and grouped listings
-/

namespace Claw.RpcReflect

open Claw Idl Spec.Range

/-! ## Bits -/

theorem byteBits_length (b : UInt8) : (byteBits b).length = 8 := rfl

theorem bits_cons (b : UInt8) (l : Bytes) : bits (b :: l) = byteBits b ++ bits l := rfl

theorem bits_append (a b : Bytes) : bits (a ++ b) = bits a ++ bits b := by
  simp [bits]

theorem bits_length (b : Bytes) : (bits b).length = 8 * b.length := by
  induction b with
  | nil => rfl
  | cons c l ih => rw [bits_cons, List.length_append, byteBits_length, ih, List.length_cons]; omega

theorem byteBits_table : ∀ a : Fin 256,
    ((byteBits (UInt8.ofNat a)).foldl (fun v b => 2 * v + b.toNat) 0) = a.val := by
  decide +kernel

theorem byteBits_inj {a b : UInt8} (h : byteBits a = byteBits b) : a = b := by
  have ha := byteBits_table ⟨a.toNat, a.toNat_lt⟩
  have hb := byteBits_table ⟨b.toNat, b.toNat_lt⟩
  simp only [UInt8.ofNat_toNat] at ha hb
  rw [h, hb] at ha
  exact UInt8.toNat_inj.1 ha.symm

theorem bits_inj : ∀ {a b : Bytes}, bits a = bits b → a = b
  | [], [], _ => rfl
  | [], b :: l, h => by
    have := congrArg List.length h; simp [bits_length] at this
  | a :: l, [], h => by
    have := congrArg List.length h; simp [bits_length] at this
  | a :: l, b :: m, h => by
    rw [bits_cons, bits_cons] at h
    have := List.append_inj h rfl
    rw [byteBits_inj this.1, bits_inj this.2]

theorem mask_table : ∀ (n : Fin 8) (a : Fin 256),
    byteBits (UInt8.ofNat a &&& maskByte n) =
      (byteBits (UInt8.ofNat a)).take n ++ List.replicate (8 - n) false := by
  decide +kernel

theorem byte_mask (n : Nat) (hn : n < 8) (a : UInt8) :
    byteBits (a &&& maskByte n) = (byteBits a).take n ++ List.replicate (8 - n) false := by
  have := mask_table ⟨n, by omega⟩ ⟨a.toNat, a.toNat_lt⟩
  simpa only [UInt8.ofNat_toNat] using this

theorem and_full (c : UInt8) : c &&& 0xff = c := by
  apply UInt8.toBitVec_inj.1
  simp only [UInt8.toBitVec_and]
  exact BitVec.and_allOnes

theorem cidrMask_length (n len : Nat) : (cidrMask n len).length = len := by
  induction len generalizing n with
  | zero => rfl
  | succ k ih => simp only [cidrMask]; split <;> simp [ih]

/-- Masking keeps the first bits and clears the others. -/
theorem bits_mask (n : Nat) (a : Bytes) :
    bits (andBytes a (cidrMask n a.length)) =
      (bits a).take n ++ List.replicate (8 * a.length - n) false := by
  induction a generalizing n with
  | nil => simp [andBytes, bits, cidrMask]
  | cons c l ih =>
    simp only [List.length_cons, cidrMask]
    split
    · rename_i h
      have e : andBytes (c :: l) (0xff :: cidrMask (n - 8) l.length) =
          (c &&& 0xff) :: andBytes l (cidrMask (n - 8) l.length) := rfl
      rw [e, and_full, bits_cons, bits_cons, ih, List.take_append, byteBits_length,
        List.take_of_length_le (l := byteBits c) (by rw [byteBits_length]; omega), List.append_assoc]
      congr 2
      rw [show 8 * l.length - (n - 8) = 8 * (l.length + 1) - n by omega]
    · rename_i h
      have e : andBytes (c :: l) (maskByte n :: cidrMask 0 l.length) =
          (c &&& maskByte n) :: andBytes l (cidrMask 0 l.length) := rfl
      rw [e, bits_cons, bits_cons, ih, byte_mask n (by omega), List.take_append, byteBits_length]
      rw [show n - 8 = 0 by omega]
      simp only [List.take_zero, List.nil_append, List.append_nil, List.append_assoc, Nat.sub_zero]
      rw [← List.replicate_append_replicate.symm]
      · congr 2
        omega

/-- Masked bytes are equal when the first bits are. -/
theorem mask_eq_iff (n : Nat) (a b : Bytes) (h : a.length = b.length) :
    andBytes a (cidrMask n a.length) = andBytes b (cidrMask n a.length) ↔
      (bits a).take n = (bits b).take n := by
  constructor
  · intro e
    have e := congrArg bits e
    rw [bits_mask] at e
    rw [h, bits_mask] at e
    rw [← h] at e
    exact (List.append_inj' e rfl).1
  · intro e
    apply bits_inj
    rw [bits_mask]
    rw [h, bits_mask, ← h, e]

theorem andBytes_idem (a m : Bytes) : andBytes (andBytes a m) m = andBytes a m := by
  induction a generalizing m with
  | nil => rfl
  | cons c l ih =>
    cases m with
    | nil => rfl
    | cons d m =>
      simp only [andBytes, List.zipWith_cons_cons] at ih ⊢
      rw [ih m]
      congr 1
      apply UInt8.toBitVec_inj.1
      simp [BitVec.and_assoc]

theorem andBytes_length (a m : Bytes) (h : a.length = m.length) :
    (andBytes a m).length = a.length := by simp [andBytes, h]

/-! ## Ranges -/

theorem mapped_eq : mapped = v4Prefix := by decide

theorem as16_eq (b : Bytes) : as16 b = sixteen b := by simp [as16, sixteen, mapped_eq]

theorem wide_length {b : Bytes} (h : IsAddr b) : (sixteen b).length = 16 := by
  unfold sixteen
  rcases h with h | h <;> simp [h, mapped]

theorem to4_v4 {b : Bytes} (h : IsAddr b) (hv : V4 b) : to4 b = some ((sixteen b).drop 12) := by
  unfold V4 at hv
  unfold to4
  by_cases h4 : b.length = 4
  · simp [sixteen, h4, mapped]
  · have h16 : b.length = 16 := h.resolve_left h4
    have hw : sixteen b = b := by simp [sixteen, h4]
    rw [hw] at hv ⊢
    rw [if_neg h4, if_pos ⟨h16, by rw [hv, mapped_eq]⟩]

theorem to4_not {b : Bytes} (h : IsAddr b) (hv : ¬ V4 b) : to4 b = none ∧ b.length = 16 := by
  unfold V4 at hv
  unfold to4
  have h4 : ¬ b.length = 4 := by
    intro h4
    apply hv
    simp [sixteen, h4, mapped]
  have hw : sixteen b = b := by simp [sixteen, h4]
  rw [hw, mapped_eq] at hv
  rw [if_neg h4, if_neg (fun hh => hv hh.2)]
  exact ⟨rfl, h.resolve_left h4⟩

theorem take_bits (b : Bytes) (n : Nat) : (bits b).take (8 * n) = bits (b.take n) := by
  induction n generalizing b with
  | zero => simp [bits]
  | succ n ih =>
    cases b with
    | nil => simp [bits]
    | cons c l =>
      rw [bits_cons, List.take_succ_cons, bits_cons, List.take_append, byteBits_length,
        List.take_of_length_le (l := byteBits c) (by rw [byteBits_length]; omega),
        show 8 * (n + 1) - 8 = 8 * n by omega, ih]

theorem v4_iff_bits (b : Bytes) : V4 b ↔ (bits (sixteen b)).take 96 = bits mapped := by
  rw [show 96 = 8 * 12 by rfl, take_bits]
  exact ⟨fun h => by rw [h], fun h => bits_inj h⟩

theorem take_shorter {α : Type} {x y : List α} {n k : Nat} (hk : k ≤ n) (h : x.take n = y.take n) :
    x.take k = y.take k := by
  have := congrArg (List.take k) h
  rwa [List.take_take, List.take_take, Nat.min_eq_left hk] at this

theorem v4_of_take {a b : Bytes} {n : Nat} (hn : 96 ≤ n)
    (h : (bits (sixteen a)).take n = (bits (sixteen b)).take n) (hv : V4 b) : V4 a := by
  rw [v4_iff_bits] at hv ⊢
  rw [take_shorter hn h, hv]

theorem wide_split {b : Bytes} (hv : V4 b) : sixteen b = mapped ++ (sixteen b).drop 12 := by
  unfold V4 at hv
  conv => lhs; rw [← List.take_append_drop 12 (sixteen b), hv]

theorem andBytes_append (a b m n : Bytes) (h : a.length = m.length) :
    andBytes (a ++ b) (m ++ n) = andBytes a m ++ andBytes b n := by
  unfold andBytes
  exact List.zipWith_append h

/-- `IPNet.Contains` of a network read from a CIDR text is membership of the range. -/
theorem contains_iff {a ip : Bytes} {n : Nat} (ha : IsAddr a) (hn : n ≤ 8 * a.length)
    (hip : IsAddr ip) :
    IPNet.contains ⟨andBytes a (cidrMask n a.length), cidrMask n a.length⟩ ip = true ↔
      InRange a n ip := by
  have hm := cidrMask_length n a.length
  have hal := andBytes_length a (cidrMask n a.length) hm.symm
  rcases ha with h4 | h16
  · -- a range written for IPv4
    have hnet : netAndMask ⟨andBytes a (cidrMask n a.length), cidrMask n a.length⟩ =
        some (andBytes a (cidrMask n a.length), cidrMask n a.length) := by
      unfold netAndMask to4
      simp only [hal, hm]
      simp only [h4, if_true]
    unfold IPNet.contains InRange
    rw [hnet]
    simp only [h4, if_true, Bool.and_eq_true, beq_iff_eq]
    rw [h4] at hal hm
    have hwa : sixteen a = mapped ++ a := by simp [sixteen, h4]
    by_cases hv : V4 ip
    · rw [to4_v4 hip hv]
      simp only [Option.getD_some]
      have hl := wide_length hip
      have hx : ((sixteen ip).drop 12).length = 4 := by simp [hl]
      rw [andBytes_idem]
      have := mask_eq_iff n a ((sixteen ip).drop 12) (by rw [h4, hx])
      rw [h4] at this
      rw [this, hwa, wide_split hv, bits_append, bits_append]
      simp only [List.drop_append_of_le_length (show 12 ≤ mapped.length by decide)]
      have hmap : (bits mapped).length = 96 := by decide
      rw [List.take_append, List.take_append, hmap, show 96 + n - 96 = n by omega,
        List.take_of_length_le (l := bits mapped) (by omega)]
      simp only [show mapped.drop 12 = [] by decide, List.nil_append, List.append_cancel_left_eq]
      constructor
      · rintro ⟨_, h⟩; exact ⟨h.symm, fun _ => by omega⟩
      · rintro ⟨h, _⟩; exact ⟨by rw [hx, hal], h.symm⟩
    · obtain ⟨e, hl⟩ := to4_not hip hv
      rw [e]
      simp only [Option.getD_none]
      constructor
      · rintro ⟨h, _⟩; omega
      · rintro ⟨h, _⟩
        exact absurd (v4_of_take (by omega) h (by simp [V4, hwa, mapped])) hv
  · -- a range written for IPv6
    have hwa : sixteen a = a := by simp [sixteen, h16]
    have h4 : ¬ a.length = 4 := by omega
    generalize hk : andBytes a (cidrMask n a.length) = k at hal
    have hka : IsAddr k := Or.inr (by omega)
    have hwk : sixteen k = k := by simp [sixteen, hal, h16]
    have hbits : bits k = (bits a).take n ++ List.replicate (8 * a.length - n) false := by
      rw [← hk, bits_mask]
    have hmk : V4 k ↔ 96 ≤ n ∧ V4 a := by
      have key : 96 ≤ n → (bits k).take 96 = (bits a).take 96 := by
        intro h
        rw [hbits, List.take_append, List.take_take, Nat.min_eq_left h]
        rw [List.length_take, bits_length, show 96 - min n (8 * a.length) = 0 by omega]
        simp
      rw [v4_iff_bits, v4_iff_bits, hwk, hwa]
      constructor
      · intro h
        have hn96 : 96 ≤ n := by
          apply Classical.byContradiction
          intro hlt
          have h1 := congrArg (fun l => l[95]?) h
          simp only [List.getElem?_take, show (95 : Nat) < 96 by omega, if_true] at h1
          rw [hbits, List.getElem?_append_right (by rw [List.length_take, bits_length]; omega)] at h1
          rw [List.length_take, bits_length, List.getElem?_replicate, if_pos (by omega)] at h1
          exact absurd h1 (by decide)
        exact ⟨hn96, by rw [← key hn96, h]⟩
      · rintro ⟨h1, h2⟩
        rw [key h1, h2]
    have hidem : andBytes k (cidrMask n a.length) = andBytes a (cidrMask n a.length) := by
      rw [← hk, andBytes_idem]
    have hcmp : ∀ b : Bytes, b.length = 16 →
        (andBytes k (cidrMask n a.length) = andBytes b (cidrMask n a.length) ↔
          (bits a).take n = (bits b).take n) := by
      intro b hb
      rw [hidem]
      exact mask_eq_iff n a b (by omega)
    generalize hmm : cidrMask n a.length = m at *
    unfold IPNet.contains InRange
    simp only [h4, if_false]
    by_cases hvk : V4 k
    · have hnet : netAndMask ⟨k, m⟩ = some (k.drop 12, m.drop 12) := by
        unfold netAndMask
        simp only [to4_v4 hka hvk, hwk, hm, h16]
        simp
      rw [hnet]
      simp only [Bool.and_eq_true, beq_iff_eq]
      obtain ⟨hn96, hva⟩ := hmk.1 hvk
      have hkl : (k.drop 12).length = 4 := by simp [hal, h16]
      by_cases hv : V4 ip
      · rw [to4_v4 hip hv]
        simp only [Option.getD_some]
        have hl := wide_length hip
        have hx : ((sixteen ip).drop 12).length = 4 := by simp [hl]
        have h3 := hcmp (sixteen ip) hl
        have hks : k = mapped ++ k.drop 12 := by
          have := wide_split hvk; rwa [hwk] at this
        have e1 : andBytes k m = andBytes mapped (m.take 12) ++ andBytes (k.drop 12) (m.drop 12) := by
          conv => lhs; rw [hks, ← List.take_append_drop 12 m]
          exact andBytes_append _ _ _ _ (by simp [mapped, hm, h16])
        have e2 : andBytes (sixteen ip) m =
            andBytes mapped (m.take 12) ++ andBytes ((sixteen ip).drop 12) (m.drop 12) := by
          conv => lhs; rw [wide_split hv, ← List.take_append_drop 12 m]
          exact andBytes_append _ _ _ _ (by simp [mapped, hm, h16])
        rw [e1, e2, List.append_cancel_left_eq] at h3
        rw [h3, hwa]
        constructor
        · rintro ⟨_, h⟩; exact ⟨h.symm, fun _ => hn96⟩
        · rintro ⟨h, _⟩; exact ⟨by rw [hx, hkl], h.symm⟩
      · obtain ⟨e, hl⟩ := to4_not hip hv
        rw [e]
        simp only [Option.getD_none]
        constructor
        · rintro ⟨h, _⟩; omega
        · rintro ⟨h, _⟩
          exact absurd (v4_of_take hn96 h hva) hv
    · have hnet : netAndMask ⟨k, m⟩ = some (k, m) := by
        unfold netAndMask
        simp only [(to4_not hka hvk).1, hal, hm, h16]
        simp
      rw [hnet]
      simp only [Bool.and_eq_true, beq_iff_eq]
      by_cases hv : V4 ip
      · rw [to4_v4 hip hv]
        simp only [Option.getD_some]
        have hl := wide_length hip
        have hx : ((sixteen ip).drop 12).length = 4 := by simp [hl]
        constructor
        · rintro ⟨h, _⟩; omega
        · rintro ⟨h, hn96⟩
          exact absurd (hmk.2 ⟨hn96 hv, v4_of_take (hn96 hv) h.symm hv⟩) hvk
      · obtain ⟨e, hl⟩ := to4_not hip hv
        rw [e]
        simp only [Option.getD_none]
        have hw : sixteen ip = ip := by simp [sixteen, hl]
        rw [hcmp ip hl, hw, hwa]
        constructor
        · rintro ⟨_, h⟩; exact ⟨h.symm, fun h => absurd h hv⟩
        · rintro ⟨h, _⟩; exact ⟨by omega, h.symm⟩

end Claw.RpcReflect
