import Verif.Lemmas.Header

/-!
# C01, C02: headers

`encodeHeaderAt`/`decodeHeader` are the models of `EncodeHeader`/`DecodeHeader`
(`segment/header.go`); `none` is a panic.
-/

namespace Claw

/-- **C01 (a)**: into any buffer of at least 8 bytes, a header made from any field number,
type and 40-bit size decodes to the same three values, and the bytes after the header are
left alone. -/
theorem C01_header_roundtrip (buf : Bytes) (hb : 8 ≤ buf.length)
    (fn ft f : Nat) (hfn : fn < 2 ^ 16) (hft : ft < 2 ^ 8) (hf : f < 2 ^ 40) :
    ∃ out, encodeHeaderAt buf fn ft f = some out ∧
      out.length = buf.length ∧ out.drop 8 = buf.drop 8 ∧
      decodeHeader out = some (fn, ft, f) ∧ decodeHeaderFinal40 out = some f := by
  refine ⟨_, encodeHeaderAt_eq hb fn ft hf, ?_, ?_, decodeHeader_hdr hfn hft hf _, ?_⟩
  · simp; omega
  · rw [List.drop_append_of_le_length (by simp), List.drop_of_length_le (by simp)]; simp
  · have h := decodeHeader_hdr hfn hft hf (buf.drop 8)
    simp only [decodeHeader, HeaderSize] at h
    simp only [decodeHeaderFinal40]
    split at h
    · simp at h
    · rename_i hn; rw [if_neg hn]
      simp only [Option.some.injEq, Prod.mk.injEq] at h
      rw [h.2.2]

example : encodeHeaderAt (zeros 9) 513 12 (2 ^ 40 - 1)
    = some [1, 2, 12, 255, 255, 255, 255, 255, 0] := by decide

/-- **C01 (b)**: on an 8-byte buffer the encoder panics exactly when the size does not fit
in 40 bits. -/
theorem C01_header_refuses (buf : Bytes) (hb : 8 ≤ buf.length) (fn ft f : Nat) :
    encodeHeaderAt buf fn ft f = none ↔ 2 ^ 40 ≤ f := by
  constructor
  · intro h
    rcases Nat.lt_or_ge f (2 ^ 40) with h' | h'
    · rw [encodeHeaderAt_eq hb fn ft h'] at h; simp at h
    · exact h'
  · exact encodeHeaderAt_panics

example : encodeHeaderAt (zeros 8) 0 14 (2 ^ 40) = none := by decide

/-- **C01 (c)**: every 8-byte string is the encoding of exactly one triple. -/
theorem C01_header_bijective (b : Bytes) (hb : b.length = 8) :
    ∃ fn ft f, (fn < 2 ^ 16 ∧ ft < 2 ^ 8 ∧ f < 2 ^ 40 ∧ makeHeader fn ft f = some b) ∧
      ∀ fn' ft' f', fn' < 2 ^ 16 → ft' < 2 ^ 8 → f' < 2 ^ 40 →
        makeHeader fn' ft' f' = some b → fn' = fn ∧ ft' = ft ∧ f' = f := by
  obtain ⟨fn, ft, f, h1, h2, h3, rfl⟩ := hdr_surj hb
  refine ⟨fn, ft, f, ⟨h1, h2, h3, makeHeader_eq fn ft h3⟩, ?_⟩
  intro fn' ft' f' h1' h2' h3' h
  rw [makeHeader_eq _ _ h3'] at h
  exact hdr_inj h1' h2' h3' h1 h2 h3 (by simpa using h)

example : makeHeader 513 12 7 = some [1, 2, 12, 7, 0, 0, 0, 0] := by decide

/-- **C01 (d)**: rewriting only the size (`EncodeHeaderFinal40`), only the number or only the
type of an encoded header changes that component and nothing else. -/
theorem C01_header_update (fn ft f fn' ft' f' : Nat) (rest : Bytes)
    (hfn : fn < 2 ^ 16) (hft : ft < 2 ^ 8) (hf : f < 2 ^ 40)
    (hfn' : fn' < 2 ^ 16) (hft' : ft' < 2 ^ 8) (hf' : f' < 2 ^ 40) (h : Bytes)
    (hh : makeHeader fn ft f = some h) :
    (∃ o, encodeHeaderFinal40 (h ++ rest) f' = some o ∧ decodeHeader o = some (fn, ft, f') ∧
      o.drop 8 = rest) ∧
    decodeHeader (encodeHeaderFieldNum (h ++ rest) fn') = some (fn', ft, f) ∧
    decodeHeader (encodeHeaderFieldType (h ++ rest) ft') = some (fn, ft', f) := by
  rw [makeHeader_eq _ _ hf] at hh
  obtain rfl : hdr fn ft f = h := by simpa using hh
  obtain ⟨p, q, hpq⟩ : ∃ p q, putLE 2 fn = [p, q] := ⟨_, _, rfl⟩
  obtain ⟨t, ht⟩ : ∃ t, putLE 1 ft = [t] := ⟨_, rfl⟩
  obtain ⟨a0, a1, a2, a3, a4, ha⟩ : ∃ a b c d e, putLE 5 f = [a, b, c, d, e] :=
    ⟨_, _, _, _, _, rfl⟩
  refine ⟨⟨hdr fn ft f' ++ rest, ?_, decodeHeader_hdr hfn hft hf' _, ?_⟩, ?_, ?_⟩
  · have h1 : ¬ f' > MaxFinal40 := by simp [MaxFinal40]; omega
    have h2 : ¬ (hdr fn ft f ++ rest).length < 8 := by simp
    simp only [encodeHeaderFinal40, h1, h2, if_false]
    simp only [hdr, hpq, ht, ha, List.cons_append, List.nil_append]
    rw [storeFinal40_eq _ _ _ _ _ _ _ _ _ hf']; simp
  · rw [List.drop_append_of_le_length (by simp), List.drop_of_length_le (by simp)]; simp
  · have := goCopy_fit [] (putLE 2 fn) (putLE 1 ft ++ putLE 5 f ++ rest) (putLE 2 fn') (by simp)
    have e : encodeHeaderFieldNum (hdr fn ft f ++ rest) fn' = hdr fn' ft f ++ rest := by
      simpa [encodeHeaderFieldNum, hdr] using this
    rw [e]; exact decodeHeader_hdr hfn' hft hf _
  · have e : encodeHeaderFieldType (hdr fn ft f ++ rest) ft' = hdr fn ft' f ++ rest := by
      simp only [encodeHeaderFieldType, hdr, hpq, ht, ha, List.cons_append, List.nil_append,
        List.set_cons_succ, List.set_cons_zero]
      simp [putLE]
    rw [e]; exact decodeHeader_hdr hfn hft' hf _

/-- **C02 (a)**: a map header gives back key type, value type and size, keeps the field number
and carries the map type tag. -/
theorem C02_map_header_roundtrip (buf : Bytes) (hb : 8 ≤ buf.length) (fn k v n : Nat)
    (hfn : fn < 2 ^ 16) (hk : k < 2 ^ 8) (hv : v < 2 ^ 8) (hn : n ≤ 2 ^ 24 - 1) :
    ∃ out, encodeMapHeaderAt buf fn k v n = some out ∧ out.drop 8 = buf.drop 8 ∧
      decodeMapHeader out = some (k, v, n) ∧
      ∃ f, decodeHeader out = some (fn, 55, f) := by
  have hn' : n < 2 ^ 24 := by omega
  refine ⟨_, encodeMapHeaderAt_eq hb fn hk hv hn, ?_, decodeMapHeader_hdr hfn hk hv hn _,
    _, decodeHeader_hdr hfn (by simp [FTMap]) (by omega) _⟩
  rw [List.drop_append_of_le_length (by simp), List.drop_of_length_le (by simp)]; simp

example : encodeMapHeaderAt (zeros 8) 3 12 4 (2 ^ 24 - 1)
    = some [3, 0, 55, 12, 4, 255, 255, 255] := by decide

/-- **C02 (b)**: the map encoder panics exactly on sizes above 2^24-1. -/
theorem C02_map_header_refuses (buf : Bytes) (hb : 8 ≤ buf.length) (fn k v n : Nat)
    (hk : k < 2 ^ 8) (hv : v < 2 ^ 8) :
    encodeMapHeaderAt buf fn k v n = none ↔ 2 ^ 24 - 1 < n := by
  constructor
  · intro h
    by_cases hn : 2 ^ 24 - 1 < n
    · exact hn
    · rw [encodeMapHeaderAt_eq hb fn hk hv (by simp [MaxMapSize]; omega)] at h; simp at h
  · intro h
    have : n > MaxMapSize := h
    simp [encodeMapHeaderAt, this]

example : encodeMapHeaderAt (zeros 8) 3 12 4 (2 ^ 24) = none := by decide

/-- **C02 (c)**: an Any header gives back the real type and the 32-bit size, keeps the field
number and carries the Any type tag. -/
theorem C02_any_header_roundtrip (buf : Bytes) (hb : 8 ≤ buf.length) (fn t n : Nat)
    (hfn : fn < 2 ^ 16) (ht : t < 2 ^ 8) (hn : n < 2 ^ 32) :
    ∃ out, encodeAnyHeaderAt buf fn t n = some out ∧ out.drop 8 = buf.drop 8 ∧
      decodeAnyHeader out = some (t, n) ∧ ∃ f, decodeHeader out = some (fn, 15, f) := by
  refine ⟨_, encodeAnyHeaderAt_eq hb fn ht hn, ?_, decodeAnyHeader_hdr hfn ht hn _,
    _, decodeHeader_hdr hfn (by simp [FTAny]) (by omega) _⟩
  rw [List.drop_append_of_le_length (by simp), List.drop_of_length_le (by simp)]; simp

example : encodeAnyHeaderAt (zeros 8) 3 14 24 = some [3, 0, 15, 14, 24, 0, 0, 0] := by decide

end Claw
