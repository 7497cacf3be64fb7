import Verif.Model.Header
import Verif.Lemmas.Bytes

namespace Claw

/-- Closed form of an encoded header, used only as a proof device: two bytes of field
number, one of type, five of final40. -/
def hdr (fieldNum fieldType final40 : Nat) : Bytes :=
  putLE 2 fieldNum ++ putLE 1 fieldType ++ putLE 5 final40

@[simp] theorem hdr_length (a b c : Nat) : (hdr a b c).length = 8 := by simp [hdr]

theorem eight_bytes {b : Bytes} (h : 8 ≤ b.length) :
    ∃ x0 x1 x2 x3 x4 x5 x6 x7 r, b = x0 :: x1 :: x2 :: x3 :: x4 :: x5 :: x6 :: x7 :: r := by
  match b, h with
  | x0 :: x1 :: x2 :: x3 :: x4 :: x5 :: x6 :: x7 :: r, _ => exact ⟨x0,x1,x2,x3,x4,x5,x6,x7,r,rfl⟩

theorem storeFinal40_eq (x0 x1 x2 x3 x4 x5 x6 x7 : UInt8) (r : Bytes) {f : Nat} (hf : f < 2 ^ 40) :
    storeFinal40 (x0 :: x1 :: x2 :: x3 :: x4 :: x5 :: x6 :: x7 :: r) f
      = x0 :: x1 :: x2 :: putLE 5 f ++ r := by
  have h0 := x0.toNat_lt
  have h1 := x1.toNat_lt
  have h2 := x2.toNat_lt
  have hu : getLE [x0, x1, x2, 0, 0, 0, 0, 0] = getLE [x0, x1, x2] := by
    simp [getLE]
  have hlt : getLE [x0, x1, x2] < 2 ^ 24 := by
    have := getLE_lt [x0, x1, x2]; simpa using this
  have hsh : (f <<< 24) % 2 ^ 64 = f <<< 24 := by
    apply Nat.mod_eq_of_lt; rw [Nat.shiftLeft_eq]; omega
  have hor : getLE [x0, x1, x2] ||| (f <<< 24) = getLE ([x0, x1, x2] ++ putLE 5 f) := by
    rw [Nat.or_comm, ← Nat.shiftLeft_add_eq_or_of_lt hlt, getLE_append,
      getLE_putLE_of_lt (by omega), Nat.shiftLeft_eq]
    simp; omega
  have hput : putLE 8 (getLE ([x0, x1, x2] ++ putLE 5 f)) = [x0, x1, x2] ++ putLE 5 f := by
    have := putLE_getLE ([x0, x1, x2] ++ putLE 5 f)
    simpa using this
  simp only [storeFinal40, List.set_cons_succ, List.set_cons_zero]
  rw [show List.take 8 (x0 :: x1 :: x2 :: 0 :: 0 :: 0 :: 0 :: 0 :: r) = [x0, x1, x2, 0, 0, 0, 0, 0]
    from rfl, hu, hsh, hor, hput]
  have := goCopy_fit [] [x0, x1, x2, 0, 0, 0, 0, 0] r ([x0, x1, x2] ++ putLE 5 f) (by simp)
  simpa using this

theorem encodeHeaderAt_eq {buf : Bytes} (hb : 8 ≤ buf.length) (fn ft : Nat) {f : Nat}
    (hf : f < 2 ^ 40) : encodeHeaderAt buf fn ft f = some (hdr fn ft f ++ buf.drop 8) := by
  obtain ⟨x0, x1, x2, x3, x4, x5, x6, x7, r, rfl⟩ := eight_bytes hb
  have h1 : ¬ ((x0 :: x1 :: x2 :: x3 :: x4 :: x5 :: x6 :: x7 :: r).length < HeaderSize) := by
    simp [HeaderSize]
  have h2 : ¬ (f > MaxFinal40) := by simp [MaxFinal40]; omega
  simp only [encodeHeaderAt, h1, h2, if_false]
  obtain ⟨p, q, hpq⟩ : ∃ p q, putLE 2 fn = [p, q] := ⟨_, _, rfl⟩
  have hc := goCopy_fit [] [x0, x1] (x2 :: x3 :: x4 :: x5 :: x6 :: x7 :: r) (putLE 2 fn) (by simp)
  simp only [List.nil_append, List.length_nil, List.cons_append] at hc
  rw [hc, hpq]
  simp only [List.cons_append, List.nil_append, List.set_cons_succ, List.set_cons_zero]
  rw [storeFinal40_eq _ _ _ _ _ _ _ _ _ hf]
  simp only [hdr, hpq]
  simp [putLE]

theorem encodeHeaderAt_panics {buf : Bytes} {fn ft f : Nat} (hf : 2 ^ 40 ≤ f) :
    encodeHeaderAt buf fn ft f = none := by
  have h2 : f > MaxFinal40 := by simp [MaxFinal40]; omega
  simp [encodeHeaderAt, h2]

theorem makeHeader_eq (fn ft : Nat) {f : Nat} (hf : f < 2 ^ 40) :
    makeHeader fn ft f = some (hdr fn ft f) := by
  rw [makeHeader, encodeHeaderAt_eq (buf := zeros HeaderSize) (by simp [HeaderSize]) fn ft hf]
  simp [zeros]

theorem decodeHeader_raw (x0 x1 x2 x3 x4 x5 x6 x7 : UInt8) (r : Bytes) :
    decodeHeader (x0 :: x1 :: x2 :: x3 :: x4 :: x5 :: x6 :: x7 :: r)
      = some (getLE [x0, x1], x2.toNat, getLE [x3, x4, x5, x6, x7]) := by
  have h1 : ¬ ((x0 :: x1 :: x2 :: x3 :: x4 :: x5 :: x6 :: x7 :: r).length < HeaderSize) := by
    simp [HeaderSize]
  simp only [decodeHeader, h1, if_false, Option.some.injEq, Prod.mk.injEq]
  refine ⟨rfl, rfl, ?_⟩
  rw [show List.take 8 (x0 :: x1 :: x2 :: x3 :: x4 :: x5 :: x6 :: x7 :: r)
    = [x0, x1, x2] ++ [x3, x4, x5, x6, x7] from rfl, getLE_append, Nat.shiftRight_eq_div_pow]
  have := getLE_lt [x0, x1, x2]
  simp only [List.length_cons, List.length_nil] at *
  omega

theorem decodeHeader_hdr {fn ft f : Nat} (hfn : fn < 2 ^ 16) (hft : ft < 2 ^ 8) (hf : f < 2 ^ 40)
    (r : Bytes) : decodeHeader (hdr fn ft f ++ r) = some (fn, ft, f) := by
  obtain ⟨p, q, hpq⟩ : ∃ p q, putLE 2 fn = [p, q] := ⟨_, _, rfl⟩
  obtain ⟨a0, a1, a2, a3, a4, ha⟩ : ∃ a b c d e, putLE 5 f = [a, b, c, d, e] :=
    ⟨_, _, _, _, _, rfl⟩
  obtain ⟨t, ht⟩ : ∃ t, putLE 1 ft = [t] := ⟨_, rfl⟩
  have e1 : getLE [p, q] = fn := by rw [← hpq]; exact getLE_putLE_of_lt (by omega)
  have e2 : getLE [a0, a1, a2, a3, a4] = f := by rw [← ha]; exact getLE_putLE_of_lt (by omega)
  have e3 : t.toNat = ft := by
    have : getLE [t] = ft := by rw [← ht]; exact getLE_putLE_of_lt (by omega)
    simpa [getLE] using this
  simp only [hdr, hpq, ha, ht, List.cons_append, List.nil_append]
  rw [decodeHeader_raw, e1, e2, e3]

/-- Every 8-byte string is a header. -/
theorem hdr_surj {b : Bytes} (h : b.length = 8) :
    ∃ fn ft f, fn < 2 ^ 16 ∧ ft < 2 ^ 8 ∧ f < 2 ^ 40 ∧ b = hdr fn ft f := by
  obtain ⟨x0, x1, x2, x3, x4, x5, x6, x7, r, rfl⟩ := eight_bytes (by omega : 8 ≤ b.length)
  have hr : r = [] := by simpa using h
  subst hr
  refine ⟨getLE [x0, x1], getLE [x2], getLE [x3, x4, x5, x6, x7], ?_, ?_, ?_, ?_⟩
  · have := getLE_lt [x0, x1]; simpa using this
  · have := getLE_lt [x2]; simpa using this
  · have := getLE_lt [x3, x4, x5, x6, x7]; simpa using this
  · have e1 := putLE_getLE [x0, x1]
    have e2 := putLE_getLE [x2]
    have e3 := putLE_getLE [x3, x4, x5, x6, x7]
    simp only [List.length_cons, List.length_nil, Nat.zero_add, Nat.reduceAdd] at e1 e2 e3
    simp [hdr, e1, e2, e3]

theorem hdr_inj {fn ft f fn' ft' f' : Nat} (h1 : fn < 2 ^ 16) (h2 : ft < 2 ^ 8) (h3 : f < 2 ^ 40)
    (h1' : fn' < 2 ^ 16) (h2' : ft' < 2 ^ 8) (h3' : f' < 2 ^ 40)
    (h : hdr fn ft f = hdr fn' ft' f') : fn = fn' ∧ ft = ft' ∧ f = f' := by
  have e1 := decodeHeader_hdr h1 h2 h3 []
  have e2 := decodeHeader_hdr h1' h2' h3' []
  rw [h, e2] at e1
  simp at e1
  exact ⟨e1.1.symm, e1.2.1.symm, e1.2.2.symm⟩

theorem or_pack2 {a b : Nat} (ha : a < 2 ^ 8) : a <<< 0 ||| b <<< 8 = a + 256 * b := by
  rw [Nat.shiftLeft_zero, Nat.or_comm, ← Nat.shiftLeft_add_eq_or_of_lt ha, Nat.shiftLeft_eq]
  omega

theorem or_pack3 {a b c : Nat} (ha : a < 2 ^ 8) (hb : b < 2 ^ 8) :
    a <<< 0 ||| b <<< 8 ||| c <<< 16 = a + 256 * b + 65536 * c := by
  rw [or_pack2 ha, Nat.or_comm, ← Nat.shiftLeft_add_eq_or_of_lt (by omega), Nat.shiftLeft_eq]
  omega

theorem and_mask8 (n : Nat) : n &&& 0xFF = n % 2 ^ 8 := Nat.and_two_pow_sub_one_eq_mod n 8
theorem and_mask24 (n : Nat) : n &&& 0xFFFFFF = n % 2 ^ 24 := Nat.and_two_pow_sub_one_eq_mod n 24
theorem and_mask32 (n : Nat) : n &&& 0xFFFFFFFF = n % 2 ^ 32 := Nat.and_two_pow_sub_one_eq_mod n 32

/-- Closed form of final40 of a map header. -/
theorem encodeMapHeaderAt_eq {buf : Bytes} (hb : 8 ≤ buf.length) (fn : Nat) {k v n : Nat}
    (hk : k < 2 ^ 8) (hv : v < 2 ^ 8) (hn : n ≤ MaxMapSize) :
    encodeMapHeaderAt buf fn k v n = some (hdr fn FTMap (k + 256 * v + 65536 * n) ++ buf.drop 8) := by
  have hn' : n < 2 ^ 24 := by simp [MaxMapSize] at hn; omega
  have h2 : ¬ n > MaxMapSize := by omega
  simp only [encodeMapHeaderAt, h2, if_false]
  rw [or_pack3 hk hv, encodeHeaderAt_eq hb _ _ (by omega)]

theorem decodeMapHeader_hdr {fn k v n : Nat} (hfn : fn < 2 ^ 16) (hk : k < 2 ^ 8) (hv : v < 2 ^ 8)
    (hn : n ≤ MaxMapSize) (r : Bytes) :
    decodeMapHeader (hdr fn FTMap (k + 256 * v + 65536 * n) ++ r) = some (k, v, n) := by
  have hn' : n < 2 ^ 24 := by simp [MaxMapSize] at hn; omega
  simp only [decodeMapHeader]
  rw [decodeHeader_hdr hfn (by simp [FTMap]) (by omega)]
  simp only [and_mask8, and_mask24, Nat.shiftRight_eq_div_pow, Option.some.injEq, Prod.mk.injEq]
  refine ⟨?_, ?_, ?_⟩ <;> omega

theorem encodeAnyHeaderAt_eq {buf : Bytes} (hb : 8 ≤ buf.length) (fn : Nat) {t n : Nat}
    (ht : t < 2 ^ 8) (hn : n < 2 ^ 32) :
    encodeAnyHeaderAt buf fn t n = some (hdr fn FTAny (t + 256 * n) ++ buf.drop 8) := by
  have h1 : ¬ buf.length < HeaderSize := by simp [HeaderSize]; omega
  simp only [encodeAnyHeaderAt, h1, if_false]
  rw [or_pack2 ht, encodeHeaderAt_eq hb _ _ (by omega)]

theorem decodeAnyHeader_hdr {fn t n : Nat} (hfn : fn < 2 ^ 16) (ht : t < 2 ^ 8) (hn : n < 2 ^ 32)
    (r : Bytes) : decodeAnyHeader (hdr fn FTAny (t + 256 * n) ++ r) = some (t, n) := by
  simp only [decodeAnyHeader]
  rw [decodeHeader_hdr hfn (by simp [FTAny]) (by omega)]
  simp only [and_mask8, and_mask32, Nat.shiftRight_eq_div_pow, Option.some.injEq, Prod.mk.injEq]
  refine ⟨?_, ?_⟩ <;> omega

end Claw
