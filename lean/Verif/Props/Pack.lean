import Verif.Lemmas.Unpack

/-!
# C25–C27: packing
-/

namespace Claw
open Pack

/-- Cut a byte string into words. -/
theorem words_of (n : Nat) : ∀ (x : Bytes), x.length = 8 * n →
    ∃ ws : List Bytes, x = ws.flatten ∧ ws.length = n ∧ ∀ w ∈ ws, w.length = 8 := by
  induction n with
  | zero => intro x h; exact ⟨[], by simpa using h, rfl, by simp⟩
  | succ n ih =>
    intro x h
    obtain ⟨ws, e, hl, h8⟩ := ih (x.drop 8) (by simp; omega)
    refine ⟨x.take 8 :: ws, ?_, by simp [hl], ?_⟩
    · rw [List.flatten_cons, ← e, List.take_append_drop]
    · intro w hw
      rcases List.mem_cons.mp hw with rfl | hw
      · simp; omega
      · exact h8 w hw

theorem grow_length (pool : Bytes) (n : Nat) : (grow pool n).length = n := by
  simp only [grow]; split <;> simp; omega

/-- What Pack returns on whole words, for any stale pooled buffer. -/
theorem pack_words (pool x : Bytes) (hx : x.length % 8 = 0) (hne : x.length ≠ 0) :
    ∃ ws out, x = List.flatten ws ∧ x.length = 8 * ws.length ∧ Enc ws out ∧ out.length ≤ maxPackedSize x.length ∧
      pack pool x = .ok (.buf (putLE 8 x.length ++ putLE 8 out.length ++ out)) := by
  obtain ⟨ws, e, hl, h8⟩ := words_of (x.length / 8) x (by omega)
  obtain ⟨out, henc, hout⟩ := packLoop_eq x.length ws h8 (by omega)
  have hb := (enc_bound henc).1
  have hmax : out.length ≤ maxPackedSize x.length := by
    simp only [maxPackedSize, if_neg hne]; omega
  refine ⟨ws, out, e, by omega, henc, hmax, ?_⟩
  have hg := grow_length pool (16 + maxPackedSize x.length)
  generalize hG : grow pool (16 + maxPackedSize x.length) = G at hg
  have h1 := hout [] (G.drop 16) (by simp; omega)
  rw [← e] at h1
  simp only [List.nil_append, List.length_nil, Nat.zero_add] at h1
  rw [pack, if_neg (by omega), if_neg hne]
  simp only [hG]
  rw [h1]
  simp only [Res.ok_bind, Res.pure_eq]
  have hG1 : G.take 16 ++ (out ++ (G.drop 16).drop out.length)
      = [] ++ G.take 8 ++ ((G.drop 8).take 8 ++ (out ++ (G.drop 16).drop out.length)) := by
    rw [show (16 : Nat) = 8 + 8 from rfl, List.take_add]; simp
  have h2 := goCopy_fit [] (G.take 8) ((G.drop 8).take 8 ++ (out ++ (G.drop 16).drop out.length))
    (putLE 8 x.length) (by simp; omega)
  have h3 := goCopy_fit (putLE 8 x.length) ((G.drop 8).take 8) (out ++ (G.drop 16).drop out.length)
    (putLE 8 out.length) (by simp; omega)
  rw [hG1]
  simp only [List.length_nil, List.nil_append, putLE_length] at h2 h3 ⊢
  rw [h2]
  simp only [List.append_assoc] at h3 ⊢
  rw [h3]
  congr 2
  rw [← List.append_assoc, ← List.append_assoc]
  apply List.take_left'
  simp only [List.length_append, putLE_length]

theorem toInt_small {n : Nat} (h : n < 2 ^ 63) : toInt n = (n : Int) := by
  rw [toInt, if_pos h]

/-- **C25 (a)** Unpacking what Pack returns gives back the input, whatever stale bytes the two pooled
buffers hold. The length bound is Go's (`len` is below 2^63); the output must be allocatable. -/
theorem C25_pack_round_trip (pool pool' x : Bytes) (maxAlloc : Nat) (hx : x.length % 8 = 0)
    (hne : x ≠ []) (hlen : x.length < 2 ^ 62) (hmem : x.length ≤ maxAlloc) :
    ∃ b, pack pool x = .ok (.buf b) ∧ unpack maxAlloc pool' b = .ok (some x) := by
  obtain ⟨ws, out, e, hl, henc, hmax, hp⟩ := pack_words pool x hx (by simpa using hne)
  refine ⟨_, hp, ?_⟩
  have hm2 : maxPackedSize x.length < 2 ^ 63 - 16 := by
    simp only [maxPackedSize]; split <;> omega
  have hL : (putLE 8 x.length ++ putLE 8 out.length ++ out).length = 16 + out.length := by simp; omega
  have g1 : getLE ((putLE 8 x.length ++ putLE 8 out.length ++ out).take 8) = x.length := by
    rw [List.append_assoc, List.take_left' (by simp), getLE_putLE_of_lt (by omega)]
  have g2 : getLE (((putLE 8 x.length ++ putLE 8 out.length ++ out).drop 8).take 8) = out.length := by
    rw [List.append_assoc, List.drop_left' (by simp), List.take_left' (by simp), getLE_putLE_of_lt (by omega)]
  have g3 : slice (putLE 8 x.length ++ putLE 8 out.length ++ out) 16 (16 + out.length) = out := by
    rw [slice, List.take_of_length_le (by omega)]
    exact List.drop_left' (by simp)
  rw [unpack, if_neg (by omega)]
  simp only [g1, g2, hL, toInt_small (by omega : x.length < 2 ^ 63),
    toInt_small (by omega : out.length < 2 ^ 63)]
  have hadd : addInt 16 (out.length : Int) = ((16 + out.length : Nat) : Int) := by
    simp only [addInt]; omega
  rw [hadd, if_neg (by omega), if_neg (by
    rw [Int.tmod_eq_emod_of_nonneg (by omega)]; omega), if_neg (by omega)]
  simp only [Int.toNat_natCast]
  rw [if_neg (by omega), if_neg (by omega), g3]
  have hg := grow_length pool' x.length
  have h1 := unpackLoop_eq henc (16 + out.length) [] (grow pool' x.length) (by omega) (by omega)
  simp only [List.nil_append, List.length_nil, Nat.zero_add] at h1
  rw [h1]
  simp only [Res.ok_bind, Res.pure_eq]
  rw [if_neg (by omega), List.drop_of_length_le (by omega), ← e, List.append_nil]

example : ([1, 0, 0, 0, 0, 0, 0, 2] ++ zeros 16 : Bytes).length % 8 = 0 := by decide

example : pack [9, 9] (zeros 24 ++ [1, 2, 3, 4, 5, 6, 7, 8, 1, 2, 0, 4, 5, 6, 7, 8])
    = .ok (.buf (putLE 8 40 ++ putLE 8 20 ++ [0, 2, 255, 1, 2, 3, 4, 5, 6, 7, 8, 1, 1, 2, 0, 4, 5, 6, 7, 8])) := by
  decide +kernel

/-- **C25 (b)** Other lengths are rejected, and the empty input gives the nil buffer. -/
theorem C25_pack_rejects (pool x : Bytes) :
    (x.length % 8 ≠ 0 → pack pool x = .ok .err) ∧ (x = [] → pack pool x = .ok .nil) := by
  refine ⟨fun h => by rw [pack, if_pos h], fun h => by subst h; rfl⟩

example : pack [] [1, 2, 3] = .ok .err := (C25_pack_rejects [] [1, 2, 3]).1 (by decide)

/-- **C26** Packing never writes outside the buffer it allocates (the model panics if it did), the
packed length is at most the worst case, and the worst case is reached: one more byte per word would
not do. -/
theorem C26_pack_fits (pool x : Bytes) (hx : x.length % 8 = 0) (hne : x ≠ []) :
    ∃ b, pack pool x = .ok (.buf b) ∧ b.length ≤ 16 + maxPackedSize x.length ∧
      b.length ≤ 16 + 9 * (x.length / 8) + 1 := by
  obtain ⟨ws, out, e, hl, henc, hmax, hp⟩ := pack_words pool x hx (by simpa using hne)
  have := (enc_bound henc).1
  exact ⟨_, hp, by simp; omega, by simp; omega⟩

/-- The bound is reached by a single word without zero bytes. -/
theorem C26_bound_reached : ∃ b, pack [] [1, 2, 3, 4, 5, 6, 7, 8] = .ok (.buf b) ∧
    b.length = 16 + maxPackedSize 8 := by
  refine ⟨_, rfl, by decide +kernel⟩

example := C26_pack_fits [1, 2] (zeros 8 ++ [1, 1, 1, 1, 1, 1, 1, 1]) (by decide) (by decide)

/-! ### C27 hostile input -/

/-- **C27, refuted**: a truncated word makes Unpack panic (index out of range) instead of returning an
error, and so do declared sizes of 2^63 and more. -/
theorem C27_panics (maxAlloc : Nat) (h : 8 ≤ maxAlloc) :
    unpack maxAlloc [] (putLE 8 8 ++ putLE 8 1 ++ [1]) = .panic ∧
    unpack maxAlloc [] (putLE 8 (2 ^ 63) ++ putLE 8 0) = .panic ∧
    unpack maxAlloc [] (putLE 8 0 ++ putLE 8 (2 ^ 63)) = .panic := by
  refine ⟨?_, ?_, ?_⟩
  · rw [unpack]
    rw [if_neg (by decide), if_neg (by decide), if_neg (by decide), if_neg (by decide)]
    rw [if_neg (by
      rw [show (toInt (getLE (List.take 8 (putLE 8 8 ++ putLE 8 1 ++ ([1] : Bytes))))).toNat = 8 by decide +kernel]; omega)]
    rw [if_neg (by decide)]
    decide +kernel
  · rw [unpack]
    rw [if_neg (by decide), if_neg (by decide), if_neg (by decide), if_pos (by decide)]
  · rw [unpack]
    rw [if_neg (by decide), if_neg (by decide), if_neg (by decide), if_neg (by decide)]
    rw [if_neg (by
      rw [show (toInt (getLE ((putLE 8 0 ++ putLE 8 (2 ^ 63)).take 8))).toNat = 0 by decide +kernel]; omega)]
    rw [if_pos (by decide)]

/-- The number of bytes a tag announces. -/
def popcount (t : UInt8) : Nat := (List.range 8).countP fun i => t.toNat.testBit i

/-- The packed stream, read with room for `room` more output bytes, ends inside a word. -/
inductive CutShort : Nat → Bytes → Prop
  | here {room : Nat} {t : UInt8} {rest : Bytes} : 8 ≤ room → rest.length < popcount t →
      CutShort room (t :: rest)
  | word {room : Nat} {t : UInt8} {rest : Bytes} : 8 ≤ room → t ≠ 0 → t ≠ 0xFF → popcount t ≤ rest.length →
      CutShort (room - 8) (rest.drop (popcount t)) → CutShort room (t :: rest)
  | zeros {room : Nat} {c : UInt8} {rest : Bytes} : 8 + 8 * c.toNat ≤ room →
      CutShort (room - 8 - 8 * c.toNat) rest → CutShort room (0 :: c :: rest)
  | literals {room : Nat} {w : Bytes} {c : UInt8} {rest : Bytes} : w.length = 8 → 8 + 8 * c.toNat ≤ room →
      8 * c.toNat ≤ rest.length → CutShort (room - 8 - 8 * c.toNat) (rest.drop (8 * c.toNat)) →
      CutShort room (0xFF :: (w ++ c :: rest))

theorem needFrom_popcount (t : UInt8) : needFrom t 8 0 = popcount t := by
  have key : ∀ x : Fin 256, needFrom (UInt8.ofNat x.val) 8 0 = popcount (UInt8.ofNat x.val) := by decide +kernel
  simpa using key ⟨t.toNat, t.toNat_lt⟩

theorem unpackLoop_total : ∀ (fuel : Nat) (src dst : Bytes) (w : Nat), src.length ≤ fuel → w ≤ dst.length →
    (CutShort (dst.length - w) src → unpackLoop fuel src dst w = .panic) ∧
    (¬ CutShort (dst.length - w) src → unpackLoop fuel src dst w = .ok none ∨
      ∃ d n, unpackLoop fuel src dst w = .ok (some (d, n)) ∧ d.length = dst.length ∧ n ≤ dst.length) := by
  intro fuel
  induction fuel with
  | zero =>
    intro src dst w hs hw
    have : src = [] := List.length_eq_zero_iff.mp (by omega)
    subst this
    exact ⟨(fun h => nomatch h), fun _ => Or.inr ⟨dst, w, rfl, rfl, hw⟩⟩
  | succ fuel ih =>
    intro src dst w hs hw
    cases src with
    | nil => exact ⟨(fun h => nomatch h), fun _ => Or.inr ⟨dst, w, rfl, rfl, hw⟩⟩
    | cons tag src =>
      simp only [List.length_cons] at hs
      by_cases hroom : w + 8 > dst.length
      · rw [unpackLoop, if_pos hroom]
        refine ⟨fun h => ?_, fun _ => Or.inl rfl⟩
        exfalso
        generalize hg : dst.length - w = g at h
        cases h <;> omega
      · obtain ⟨hok, hpanic⟩ := unpackWord_total tag w 8 0 dst src (by omega) (by omega)
        rw [needFrom_popcount] at hok hpanic
        rw [unpackLoop, if_neg hroom]
        by_cases hshort : src.length < popcount tag
        · rw [hpanic hshort]
          refine ⟨fun _ => rfl, fun h => absurd (CutShort.here (by omega) hshort) h⟩
        · obtain ⟨d, hd, hdl⟩ := hok (by omega)
          rw [hd]
          simp only [Res.ok_bind]
          by_cases hz : tag = 0
          · subst hz
            have hpc : popcount 0 = 0 := by decide
            rw [if_pos rfl, hpc, List.drop_zero]
            cases src with
            | nil =>
              refine ⟨fun h => ?_, fun _ => Or.inl rfl⟩
              exfalso
              cases h
              · rename_i h; simp [hpc] at h
              · rename_i h _ _ _; exact h rfl
            | cons c src =>
              simp only [List.length_cons] at hs
              simp only
              by_cases hfit : w + 8 + c.toNat * 8 > d.length
              · rw [if_pos hfit]
                refine ⟨fun h => ?_, fun _ => Or.inl rfl⟩
                exfalso
                generalize hg : dst.length - w = g at h
                cases h
                · rename_i h; simp [hpc] at h
                · rename_i h _ _ _; exact h rfl
                · omega
              · rw [if_neg hfit]
                obtain ⟨d', hd', hdl'⟩ := putZeros_total (c.toNat * 8) d (w + 8) (by omega)
                rw [hd']
                simp only [Res.ok_bind]
                obtain ⟨i1, i2⟩ := ih src d' (w + 8 + c.toNat * 8) (by omega) (by omega)
                rw [show d'.length - (w + 8 + c.toNat * 8) = dst.length - w - 8 - 8 * c.toNat by omega] at i1 i2
                have hiff : CutShort (dst.length - w) (0 :: c :: src) ↔
                    CutShort (dst.length - w - 8 - 8 * c.toNat) src := by
                  refine ⟨fun h => ?_, fun h => CutShort.zeros (by omega) h⟩
                  cases h
                  · rename_i h; simp [hpc] at h
                  · rename_i h _ _ _; exact absurd rfl h
                  · assumption
                rw [hiff]
                refine ⟨i1, fun h => ?_⟩
                rcases i2 h with h | ⟨x, n, h, hx, hn⟩
                · exact Or.inl h
                · exact Or.inr ⟨x, n, h, by omega, by omega⟩
          · rw [if_neg hz]
            by_cases hff : tag = 0xFF
            · subst hff
              have hpc : popcount 0xFF = 8 := by decide
              rw [hpc] at hshort
              rw [if_pos rfl, hpc]
              have hsplit : src = src.take 8 ++ src.drop 8 := (List.take_append_drop 8 src).symm
              have ht8 : (src.take 8).length = 8 := by simp; omega
              have inv : ∀ {room : Nat} {c : UInt8} {rest : Bytes}, src.drop 8 = c :: rest →
                  CutShort room (0xFF :: src) → 8 + 8 * c.toNat ≤ room ∧ 8 * c.toNat ≤ rest.length ∧
                    CutShort (room - 8 - 8 * c.toNat) (rest.drop (8 * c.toNat)) := by
                intro room c rest hdr h
                generalize hS : (0xFF :: src : Bytes) = S at h
                cases h with
                | here _ h => simp only [List.cons.injEq] at hS; rw [← hS.1, ← hS.2, hpc] at h; omega
                | word _ _ h => simp only [List.cons.injEq] at hS; exact absurd hS.1.symm h
                | zeros _ _ => simp at hS
                | literals hw h1 h2 h3 =>
                  simp only [List.cons.injEq, true_and] at hS
                  rw [hS, List.drop_left' hw] at hdr
                  simp only [List.cons.injEq] at hdr
                  obtain ⟨rfl, rfl⟩ := hdr
                  exact ⟨h1, h2, h3⟩
              cases hdr : src.drop 8 with
              | nil =>
                refine ⟨fun h => ?_, fun _ => Or.inl rfl⟩
                exfalso
                have hlen : src.length = 8 := by
                  have := congrArg List.length hdr; simp at this; omega
                generalize hS : (0xFF :: src : Bytes) = S at h
                cases h with
                | here _ h => simp only [List.cons.injEq] at hS; rw [← hS.1, ← hS.2, hpc] at h; omega
                | word _ _ h => simp only [List.cons.injEq] at hS; exact absurd hS.1.symm h
                | zeros _ _ => simp at hS
                | literals hw h1 h2 h3 =>
                  simp only [List.cons.injEq, true_and] at hS
                  rw [hS] at hlen; simp at hlen; omega
              | cons c rest =>
                have hrl : src.length = 9 + rest.length := by
                  have := congrArg List.length hdr; simp at this; omega
                simp only
                by_cases hl1 : c.toNat * 8 > rest.length
                · rw [if_pos hl1]
                  exact ⟨fun h => by have := inv hdr h; omega, fun _ => Or.inl rfl⟩
                · rw [if_neg hl1]
                  by_cases hfit : w + 8 + c.toNat * 8 > d.length
                  · rw [if_pos hfit]
                    exact ⟨fun h => by have := inv hdr h; omega, fun _ => Or.inl rfl⟩
                  · rw [if_neg hfit]
                    have hgl := goCopy_length d (w + 8) (rest.take (c.toNat * 8)) (by omega)
                    obtain ⟨i1, i2⟩ := ih (rest.drop (c.toNat * 8)) (goCopy d (w + 8) (rest.take (c.toNat * 8)))
                      (w + 8 + c.toNat * 8) (by simp; omega) (by omega)
                    rw [hgl, show d.length - (w + 8 + c.toNat * 8) = dst.length - w - 8 - 8 * c.toNat by omega,
                      Nat.mul_comm c.toNat 8] at i1 i2
                    rw [Nat.mul_comm c.toNat 8]
                    have hiff : CutShort (dst.length - w) (0xFF :: src) ↔
                        CutShort (dst.length - w - 8 - 8 * c.toNat) (rest.drop (8 * c.toNat)) := by
                      refine ⟨fun h => (inv hdr h).2.2, fun h => ?_⟩
                      rw [hsplit, hdr]
                      exact CutShort.literals ht8 (by omega) (by omega) h
                    rw [hiff]
                    refine ⟨i1, fun h => ?_⟩
                    rcases i2 h with h | ⟨x, n, h, hx, hn⟩
                    · exact Or.inl h
                    · exact Or.inr ⟨x, n, h, by omega, by omega⟩
            · rw [if_neg hff]
              obtain ⟨i1, i2⟩ := ih (src.drop (popcount tag)) d (w + 8) (by simp; omega) (by omega)
              rw [show d.length - (w + 8) = dst.length - w - 8 by omega] at i1 i2
              have hiff : CutShort (dst.length - w) (tag :: src) ↔
                  CutShort (dst.length - w - 8) (src.drop (popcount tag)) := by
                refine ⟨fun h => ?_, fun h => CutShort.word (by omega) hz hff (by omega) h⟩
                cases h with
                | here _ h => omega
                | word _ _ _ _ h => exact h
                | zeros _ _ => exact absurd rfl hz
                | literals _ _ _ _ => exact absurd rfl hff
              rw [hiff]
              refine ⟨i1, fun h => ?_⟩
              rcases i2 h with h | ⟨x, n, h, hx, hn⟩
              · exact Or.inl h
              · exact Or.inr ⟨x, n, h, by omega, by omega⟩

/-- **C27 (partial)** Exactly when it panics, for headers that declare sizes below 2^62 that can be
allocated: only if the packed data ends inside a word. In all other cases Unpack returns an error, or
an output of the declared size. Missing: the panics of `C27_panics`. -/
theorem C27_unpack_partial (maxAlloc : Nat) (pool packed : Bytes) (h16 : 16 ≤ packed.length)
    (hu : getLE (packed.take 8) < 2 ^ 62) (hp : getLE ((packed.drop 8).take 8) < 2 ^ 62)
    (hmem : getLE (packed.take 8) ≤ maxAlloc) :
    (unpack maxAlloc pool packed = .panic ↔
      16 + getLE ((packed.drop 8).take 8) ≤ packed.length ∧ getLE (packed.take 8) % 8 = 0 ∧
      CutShort (getLE (packed.take 8)) (slice packed 16 (16 + getLE ((packed.drop 8).take 8)))) ∧
    (unpack maxAlloc pool packed ≠ .panic → unpack maxAlloc pool packed = .ok none ∨
      ∃ out, unpack maxAlloc pool packed = .ok (some out) ∧ out.length = getLE (packed.take 8)) := by
  generalize hU : getLE (packed.take 8) = u at *
  generalize hP : getLE ((packed.drop 8).take 8) = p at *
  rw [unpack, if_neg (by omega), hU, hP]
  simp only [toInt_small (by omega : u < 2 ^ 63), toInt_small (by omega : p < 2 ^ 63)]
  have hadd : addInt 16 (p : Int) = ((16 + p : Nat) : Int) := by simp only [addInt]; omega
  rw [hadd]
  by_cases h1 : (packed.length : Int) < ((16 + p : Nat) : Int)
  · rw [if_pos h1]
    exact ⟨⟨fun h => by simp at h, fun h => by omega⟩, fun _ => Or.inl rfl⟩
  · rw [if_neg h1, Int.tmod_eq_emod_of_nonneg (by omega)]
    by_cases h2 : u % 8 = 0
    · rw [if_neg (by omega), if_neg (by omega), Int.toNat_natCast, if_neg (by omega), if_neg (by omega)]
      simp only [Int.toNat_natCast]
      have hg := grow_length pool u
      obtain ⟨i1, i2⟩ := unpackLoop_total packed.length (slice packed 16 (16 + p)) (grow pool u) 0
        (by rw [slice_length]; omega) (by omega)
      rw [hg, Nat.sub_zero] at i1 i2
      by_cases hc : CutShort u (slice packed 16 (16 + p))
      · rw [i1 hc]
        exact ⟨⟨fun _ => ⟨by omega, h2, hc⟩, fun _ => rfl⟩, fun h => absurd rfl h⟩
      · rcases i2 hc with h | ⟨d, n, h, hd, hn⟩
        · rw [h]
          exact ⟨⟨fun h => by simp at h, fun h => absurd h.2.2 hc⟩, fun _ => Or.inl rfl⟩
        · rw [h]
          simp only [Res.ok_bind, Res.pure_eq]
          by_cases hnu : n ≠ u
          · rw [if_pos hnu]
            exact ⟨⟨fun h => by simp at h, fun h => absurd h.2.2 hc⟩, fun _ => Or.inl rfl⟩
          · rw [if_neg hnu]
            exact ⟨⟨fun h => by simp at h, fun h => absurd h.2.2 hc⟩, fun _ => Or.inr ⟨d, rfl, hd⟩⟩
    · rw [if_pos (by omega)]
      exact ⟨⟨fun h => by simp at h, fun h => absurd h.2.1 h2⟩, fun _ => Or.inl rfl⟩

/-- Junk that is rejected, junk that is cut short. -/
example : unpack 100 [] (putLE 8 8 ++ putLE 8 2 ++ [0, 200]) = .ok none := by decide +kernel
example : CutShort 8 [3, 7] := .here (by decide) (by decide)

end Claw
