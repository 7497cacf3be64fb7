import Verif.Model.Pack
import Verif.Lemmas.Bytes
import Verif.Lemmas.Bits

namespace Claw.Pack

theorem put_eq (pre rest : Bytes) (x b : UInt8) (w : Nat) (hw : w = pre.length) :
    put (pre ++ x :: rest) w b = .ok (pre ++ b :: rest) := by
  subst hw; simp [put]

theorem wordByte_getLE (bs : Bytes) : ∀ i, wordByte (getLE bs) i = bs.getD i 0 := by
  induction bs with
  | nil => intro i; simp [wordByte, getLE]
  | cons b bs ih =>
    intro i
    cases i with
    | zero =>
      simp only [wordByte, getLE, Nat.zero_mul, Nat.shiftRight_zero, List.getD_cons_zero]
      apply UInt8.toNat.inj
      have := b.toNat_lt
      simp
    | succ i =>
      simp only [List.getD_cons_succ, ← ih i, wordByte, getLE]
      congr 1
      rw [show (i + 1) * 8 = 8 + i * 8 by omega, Nat.shiftRight_add]
      congr 1
      rw [Nat.shiftRight_eq_div_pow]
      have := b.toNat_lt
      omega

theorem tagBit_or (x : UInt8) (a b : Nat) (ha : a < 8) (hb : b < 8) :
    tagBit (x ||| (1 <<< UInt8.ofNat a)) b = (tagBit x b || decide (a = b)) := bit_or x a b ha hb

theorem tagBit_computeTagFrom (word : Nat) : ∀ (k i : Nat) (tag : UInt8) (b : Nat), i + k = 8 → b < 8 →
    tagBit (computeTagFrom word k i tag) b = (tagBit tag b || (decide (i ≤ b) && (wordByte word b != 0))) := by
  intro k
  induction k with
  | zero => intro i tag b hi hb; simp [computeTagFrom]; omega
  | succ k ih =>
    intro i tag b hi hb
    rw [computeTagFrom, ih (i + 1) _ b (by omega) hb]
    by_cases hw : wordByte word i = 0
    · simp only [hw, bne_self_eq_false, Bool.false_eq_true, if_false]
      by_cases hib : i = b
      · subst hib; simp [hw]
      · congr 2
        apply decide_eq_decide.mpr; omega
    · rw [if_pos (by simpa using hw), tagBit_or _ _ _ (by omega) hb]
      by_cases hib : i = b
      · subst hib; simp [hw]
      · rw [show decide (i = b) = false by simpa using hib, Bool.or_false]
        congr 2
        apply decide_eq_decide.mpr; omega

/-- Bit `b` of the tag says whether byte `b` of the word is not zero. -/
theorem tagBit_computeTag (bs : Bytes) (b : Nat) (hb : b < 8) :
    tagBit (computeTag (getLE bs)) b = (bs.getD b 0 != 0) := by
  rw [computeTag, tagBit_computeTagFrom _ _ _ _ _ (by omega) hb, wordByte_getLE]
  simp [tagBit]

theorem tag_cases (t : UInt8) : (t = 0 ↔ ∀ b, b < 8 → tagBit t b = false) ∧
    (t = 0xFF ↔ ∀ b, b < 8 → tagBit t b = true) := by
  have key : ∀ x : Fin 256, (UInt8.ofNat x.val = 0 ↔ ∀ b : Fin 8, tagBit (UInt8.ofNat x.val) b.val = false) ∧
      (UInt8.ofNat x.val = 0xFF ↔ ∀ b : Fin 8, tagBit (UInt8.ofNat x.val) b.val = true) := by decide +kernel
  have := key ⟨t.toNat, t.toNat_lt⟩
  simp only [UInt8.ofNat_toNat] at this
  refine ⟨this.1.trans ⟨fun h b hb => h ⟨b, hb⟩, fun h b => h b.val b.isLt⟩,
    this.2.trans ⟨fun h b hb => h ⟨b, hb⟩, fun h b => h b.val b.isLt⟩⟩

/-- The bytes of a word that are not zero. -/
def nz (bs : Bytes) : Bytes := bs.filter (· != 0)

theorem nz_cons_zero {x : UInt8} (bs : Bytes) (h : x = 0) : nz (x :: bs) = nz bs := by
  simp [nz, h]

theorem nz_cons_pos {x : UInt8} (bs : Bytes) (h : x ≠ 0) : nz (x :: bs) = x :: nz bs := by
  simp [nz, h]

theorem tag_zero_iff (bs : Bytes) (h : bs.length = 8) : computeTag (getLE bs) = 0 ↔ bs = zeros 8 := by
  rw [(tag_cases _).1]
  constructor
  · intro hb
    apply List.ext_getElem (by simp [h])
    intro i h1 h2
    have := hb i (by omega)
    rw [tagBit_computeTag bs i (by omega), List.getD_eq_getElem?_getD, List.getElem?_eq_getElem h1] at this
    simp only [zeros, List.getElem_replicate]
    simpa using this
  · intro e b hb
    rw [tagBit_computeTag bs b hb, e]
    rw [zeros, List.getD_eq_getElem?_getD, List.getElem?_replicate, if_pos hb]
    rfl

theorem tag_ff_iff (bs : Bytes) (h : bs.length = 8) : computeTag (getLE bs) = 0xFF ↔ nz bs = bs := by
  rw [(tag_cases _).2]
  rw [nz, List.filter_eq_self]
  constructor
  · intro hb x hx
    obtain ⟨i, hi, rfl⟩ := List.getElem_of_mem hx
    have := hb i (by omega)
    rwa [tagBit_computeTag bs i (by omega), List.getD_eq_getElem?_getD, List.getElem?_eq_getElem hi,
      Option.getD_some] at this
  · intro hx b hb
    rw [tagBit_computeTag bs b hb, List.getD_eq_getElem?_getD, List.getElem?_eq_getElem (by omega),
      Option.getD_some]
    exact hx _ (List.getElem_mem _)

theorem packWord_eq (bs : Bytes) (h8 : bs.length = 8) : ∀ (k i : Nat), i + k = 8 →
    ∀ (pre rest : Bytes), (nz (bs.drop i)).length ≤ rest.length →
    packWord (getLE bs) (computeTag (getLE bs)) k i (pre ++ rest) pre.length
      = .ok (pre ++ nz (bs.drop i) ++ rest.drop (nz (bs.drop i)).length,
          pre.length + (nz (bs.drop i)).length) := by
  intro k
  induction k with
  | zero =>
    intro i hi pre rest _
    rw [List.drop_of_length_le (by omega)]
    simp [packWord, nz]
  | succ k ih =>
    intro i hi pre rest hr
    have hd : bs.drop i = bs[i] :: bs.drop (i + 1) := List.drop_eq_getElem_cons (by omega)
    have hbit := tagBit_computeTag bs i (by omega)
    rw [List.getD_eq_getElem?_getD, List.getElem?_eq_getElem (by omega : i < bs.length), Option.getD_some] at hbit
    have hwb : wordByte (getLE bs) i = bs[i] := by
      rw [wordByte_getLE, List.getD_eq_getElem?_getD, List.getElem?_eq_getElem (by omega), Option.getD_some]
    rw [packWord, hbit]
    by_cases hz : bs[i] = 0
    · rw [if_neg (by simp [hz])]
      have hnz : nz (bs.drop i) = nz (bs.drop (i + 1)) := by rw [hd, nz_cons_zero _ hz]
      rw [hnz] at hr ⊢
      exact ih (i + 1) (by omega) pre rest hr
    · rw [if_pos (by simpa using hz)]
      have hnz : nz (bs.drop i) = bs[i] :: nz (bs.drop (i + 1)) := by
        rw [hd, nz_cons_pos _ hz]
      rw [hnz] at hr ⊢
      cases rest with
      | nil => simp at hr
      | cons x rest =>
        rw [put_eq pre rest x _ _ rfl, hwb]
        simp only [Res.ok_bind]
        have := ih (i + 1) (by omega) (pre ++ [bs[i]]) rest (by simpa using hr)
        simp only [List.append_assoc, List.singleton_append, List.length_append, List.length_singleton] at this
        rw [this]
        simp only [List.append_assoc, List.cons_append, List.length_cons, List.drop_succ_cons,
          List.singleton_append]
        congr 2
        omega

/-! ### The packed stream as a relation -/

/-- `Enc ws out`: `out` is a packed form of the words `ws`. -/
inductive Enc : List Bytes → Bytes → Prop
  | nil : Enc [] []
  | zero {ws : List Bytes} {out : Bytes} (n : Nat) : n ≤ 255 → Enc ws out →
      Enc (zeros 8 :: (List.replicate n (zeros 8) ++ ws)) (0 :: UInt8.ofNat n :: out)
  | lit {w : Bytes} {lits ws : List Bytes} {out : Bytes} : w.length = 8 → nz w = w →
      lits.length ≤ 255 → (∀ l ∈ lits, l.length = 8) →
      (lits.length = 255 ∨ ws = [] ∨ ∃ w' ws', ws = w' :: ws' ∧ (nz w').length + 2 ≤ 8) → Enc ws out →
      Enc (w :: (lits ++ ws)) (0xFF :: (w ++ UInt8.ofNat lits.length :: (lits.flatten ++ out)))
  | word {w : Bytes} {ws : List Bytes} {out : Bytes} : w.length = 8 → w ≠ zeros 8 → nz w ≠ w →
      Enc ws out → Enc (w :: ws) (computeTag (getLE w) :: (nz w ++ out))

theorem nz_length_lt {w : Bytes} (h : nz w ≠ w) : (nz w).length < w.length := by
  have h1 : (nz w).length ≤ w.length := List.length_filter_le _ _
  rcases Nat.lt_or_eq_of_le h1 with h2 | h2
  · exact h2
  · exact absurd ((List.filter_sublist (p := (· != 0)) (l := w)).eq_of_length h2) h

/-- The packed form is at most 9 bytes per word plus one; and the one is not needed when the first word has
two zero bytes. -/
theorem enc_bound {ws : List Bytes} {out : Bytes} (h : Enc ws out) :
    out.length ≤ 9 * ws.length + 1 ∧ (ws = [] → out = []) ∧
    (∀ w ws', ws = w :: ws' → (nz w).length + 2 ≤ 8 → out.length ≤ 9 * ws.length) := by
  induction h with
  | nil => simp
  | zero n hn _ ih =>
    obtain ⟨h1, h2, h3⟩ := ih
    refine ⟨?_, by simp, ?_⟩
    · simp only [List.length_cons, List.length_append, List.length_replicate]; omega
    · intro w ws' _ _
      simp only [List.length_cons, List.length_append, List.length_replicate]; omega
  | @lit w lits ws out hw hn hl hlits hmax _ ih =>
    obtain ⟨h1, h2, h3⟩ := ih
    have hflat : lits.flatten.length = 8 * lits.length := by
      clear hl hmax
      induction lits with
      | nil => rfl
      | cons l ls ih =>
        have := ih (fun x hx => hlits x (by simp [hx]))
        have := hlits l (by simp)
        simp only [List.flatten_cons, List.length_append, List.length_cons]; omega
    have hlen : (0xFF :: (w ++ UInt8.ofNat lits.length :: (lits.flatten ++ out))).length
        = 10 + 8 * lits.length + out.length := by
      simp only [List.length_cons, List.length_append, hw, hflat]; omega
    rw [hlen]
    simp only [List.length_cons, List.length_append]
    refine ⟨?_, by simp, ?_⟩
    · rcases hmax with hm | hm | ⟨w', ws', he, hz⟩
      · omega
      · subst hm; rw [h2 rfl]; simp; omega
      · have := h3 w' ws' he hz; omega
    · intro w0 ws0 e hz
      simp only [List.cons.injEq] at e
      rw [← e.1, hn, hw] at hz; omega
  | @word w ws out hw _ hn _ ih =>
    obtain ⟨h1, h2, h3⟩ := ih
    have := nz_length_lt hn
    simp only [List.length_cons, List.length_append]
    refine ⟨by omega, by simp, ?_⟩
    intro w0 ws0 e hz
    simp only [List.cons.injEq] at e
    rw [← e.1] at hz; omega

/-! ### Packing produces such a stream -/

theorem take_flatten {w : Bytes} {ws : List Bytes} (h : w.length = 8) :
    (w :: ws).flatten.take 8 = w ∧ (w :: ws).flatten.drop 8 = ws.flatten := by
  simp only [List.flatten_cons]
  exact ⟨List.take_left' h, List.drop_left' h⟩

theorem getLE_eq_zero {w : Bytes} : getLE w = 0 ↔ w = zeros w.length := by
  constructor
  · intro h
    have := putLE_getLE w
    rw [h, putLE_zero] at this; exact this.symm
  · intro h; rw [h]; simp

theorem zeroRun_eq : ∀ (k : Nat) (ws : List Bytes), (∀ w ∈ ws, w.length = 8) →
    ∃ n ws', ws = List.replicate n (zeros 8) ++ ws' ∧ n ≤ k ∧ zeroRun k ws.flatten = (n, ws'.flatten) := by
  intro k
  induction k with
  | zero => intro ws _; exact ⟨0, ws, by simp, by omega, rfl⟩
  | succ k ih =>
    intro ws h8
    cases ws with
    | nil => exact ⟨0, [], by simp, by omega, by simp [zeroRun]⟩
    | cons w ws =>
      have hw := h8 w (by simp)
      obtain ⟨ht, hd⟩ := take_flatten (ws := ws) hw
      simp only [zeroRun, ht, hd]
      by_cases hz : getLE w = 0
      · obtain ⟨n, ws', e, hn, hr⟩ := ih ws (fun x hx => h8 x (by simp [hx]))
        rw [if_pos ⟨by simp only [List.flatten_cons, List.length_append]; omega, hz⟩, hr]
        rw [getLE_eq_zero, hw] at hz
        exact ⟨n + 1, ws', by rw [hz, e]; simp [List.replicate_succ], by omega, rfl⟩
      · rw [if_neg (by intro h; exact hz h.2)]
        exact ⟨0, w :: ws, by simp, by omega, rfl⟩

theorem countZerosFrom_eq (bs : Bytes) (h8 : bs.length = 8) : ∀ (k i : Nat), i + k = 8 →
    countZerosFrom (getLE bs) k i + (nz (bs.drop i)).length = k := by
  intro k
  induction k with
  | zero => intro i hi; rw [List.drop_of_length_le (by omega)]; simp [countZerosFrom, nz]
  | succ k ih =>
    intro i hi
    have hd : bs.drop i = bs[i] :: bs.drop (i + 1) := List.drop_eq_getElem_cons (by omega)
    have := ih (i + 1) (by omega)
    rw [countZerosFrom, wordByte_getLE, List.getD_eq_getElem?_getD, List.getElem?_eq_getElem (by omega),
      Option.getD_some, hd]
    by_cases hz : bs[i] = 0
    · rw [nz_cons_zero _ hz, if_pos (by simp [hz])]; omega
    · rw [nz_cons_pos _ hz, if_neg (by simpa using hz), List.length_cons]; omega

theorem countZeros_eq (bs : Bytes) (h8 : bs.length = 8) :
    countZerosInWord (getLE bs) + (nz bs).length = 8 := by
  simpa [countZerosInWord] using countZerosFrom_eq bs h8 8 0 (by omega)

theorem litRun_eq : ∀ (k : Nat) (ws : List Bytes), (∀ w ∈ ws, w.length = 8) →
    ∃ lits ws', ws = lits ++ ws' ∧ lits.length ≤ k ∧
      (lits.length = k ∨ ws' = [] ∨ ∃ w' ws'', ws' = w' :: ws'' ∧ (nz w').length + 2 ≤ 8) ∧
      ∀ (pre rest : Bytes), 8 * lits.length ≤ rest.length →
      litRun k ws.flatten (pre ++ rest) pre.length
        = .ok (lits.length, ws'.flatten, pre ++ lits.flatten ++ rest.drop (8 * lits.length),
            pre.length + 8 * lits.length) := by
  intro k
  induction k with
  | zero => intro ws _; exact ⟨[], ws, by simp, by simp, by simp, by intro pre rest _; simp [litRun]⟩
  | succ k ih =>
    intro ws h8
    cases ws with
    | nil => exact ⟨[], [], by simp, by simp, by simp, by intro pre rest _; simp [litRun]⟩
    | cons w ws =>
      have hw := h8 w (by simp)
      obtain ⟨ht, hd⟩ := take_flatten (ws := ws) hw
      have hcz := countZeros_eq w hw
      have hpos : 0 < (w :: ws).flatten.length := by
        simp only [List.flatten_cons, List.length_append]; omega
      by_cases hz : countZerosInWord (getLE w) ≥ 2
      · refine ⟨[], w :: ws, by simp, by simp, Or.inr (Or.inr ⟨w, ws, rfl, by omega⟩), ?_⟩
        intro pre rest _
        simp only [litRun, ht]
        rw [if_pos hpos, if_pos hz]; simp
      · obtain ⟨lits, ws', e, hl, hm, hr⟩ := ih ws (fun x hx => h8 x (by simp [hx]))
        refine ⟨w :: lits, ws', by rw [e]; rfl, by simp; omega,
          by simpa using hm, ?_⟩
        intro pre rest hrest
        simp only [List.length_cons] at hrest
        simp only [litRun, ht, hd]
        rw [if_pos hpos, if_neg hz]
        have hx : rest = rest.take 8 ++ rest.drop 8 := (List.take_append_drop 8 rest).symm
        have hpw : putWord (pre ++ rest) pre.length (getLE w) = .ok (pre ++ w ++ rest.drop 8) := by
          rw [putWord, if_pos (by simp; omega)]
          have := goCopy_fit pre (rest.take 8) (rest.drop 8) (putLE 8 (getLE w)) (by simp; omega)
          rw [List.append_assoc, ← hx] at this
          rw [this]
          have hpl := putLE_getLE w
          rw [hw] at hpl; rw [hpl]
        rw [hpw]
        simp only [Res.ok_bind]
        have := hr (pre ++ w) (rest.drop 8) (by simp; omega)
        rw [List.length_append, hw] at this
        rw [this]
        simp only [Res.ok_bind, Res.pure_eq, List.flatten_cons, List.append_assoc, List.drop_drop,
          List.length_cons]
        rw [show 8 * (lits.length + 1) = 8 + 8 * lits.length by omega, Nat.add_assoc]

theorem packLoop_eq : ∀ (fuel : Nat) (ws : List Bytes), (∀ w ∈ ws, w.length = 8) → ws.length ≤ fuel →
    ∃ out, Enc ws out ∧ ∀ (pre rest : Bytes), out.length ≤ rest.length →
      packLoop fuel ws.flatten (pre ++ rest) pre.length
        = .ok (pre ++ out ++ rest.drop out.length, pre.length + out.length) := by
  intro fuel
  induction fuel with
  | zero =>
    intro ws _ hf
    have : ws = [] := List.length_eq_zero_iff.mp (by omega)
    subst this
    exact ⟨[], .nil, by intro pre rest _; simp [packLoop]⟩
  | succ fuel ih =>
    intro ws h8 hf
    cases ws with
    | nil => exact ⟨[], .nil, by intro pre rest _; simp [packLoop]⟩
    | cons w ws =>
      have hw := h8 w (by simp)
      have h8' : ∀ x ∈ ws, x.length = 8 := fun x hx => h8 x (by simp [hx])
      obtain ⟨ht, hd⟩ := take_flatten (ws := ws) hw
      have hpos : 0 < (w :: ws).flatten.length := by
        simp only [List.flatten_cons, List.length_append]; omega
      -- the tag and the bytes of the word
      have hhead : ∀ (pre : Bytes) (x : UInt8) (rest : Bytes), (nz w).length ≤ rest.length →
          (do let dst ← put (pre ++ x :: rest) pre.length (computeTag (getLE w))
              packWord (getLE w) (computeTag (getLE w)) 8 0 dst (pre.length + 1))
          = .ok (pre ++ computeTag (getLE w) :: (nz w ++ rest.drop (nz w).length),
              pre.length + 1 + (nz w).length) := by
        intro pre x rest hr
        rw [put_eq pre rest x _ _ rfl]
        simp only [Res.ok_bind]
        have := packWord_eq w hw 8 0 (by omega) (pre ++ [computeTag (getLE w)]) rest (by simpa using hr)
        simpa [List.append_assoc] using this
      have hunfold : ∀ (pre : Bytes) (x : UInt8) (rest : Bytes), (nz w).length ≤ rest.length →
          packLoop (fuel + 1) (w :: ws).flatten (pre ++ x :: rest) pre.length =
          (if computeTag (getLE w) = 0x00 then do
            let dst ← put (pre ++ computeTag (getLE w) :: (nz w ++ rest.drop (nz w).length))
              (pre.length + 1 + (nz w).length) (UInt8.ofNat (zeroRun 255 ws.flatten).1)
            packLoop fuel (zeroRun 255 ws.flatten).2 dst (pre.length + 1 + (nz w).length + 1)
          else if computeTag (getLE w) = 0xFF then do
            let (count, src, dst, w') ← litRun 255 ws.flatten
              (pre ++ computeTag (getLE w) :: (nz w ++ rest.drop (nz w).length))
              (pre.length + 1 + (nz w).length + 1)
            let dst ← put dst (pre.length + 1 + (nz w).length) (UInt8.ofNat count)
            packLoop fuel src dst w'
          else packLoop fuel ws.flatten
            (pre ++ computeTag (getLE w) :: (nz w ++ rest.drop (nz w).length))
            (pre.length + 1 + (nz w).length)) := by
        intro pre x rest hr
        have hh := hhead pre x rest hr
        rw [packLoop, if_pos hpos]
        simp only [ht, hd]
        cases hp : put (pre ++ x :: rest) pre.length (computeTag (getLE w)) with
        | panic => rw [hp] at hh; simp at hh
        | hang => rw [hp] at hh; simp at hh
        | ok d =>
          rw [hp] at hh
          simp only [Res.ok_bind] at hh ⊢
          rw [hh]
          rfl
      by_cases hz : computeTag (getLE w) = 0
      · -- a run of zero words
        obtain ⟨n, ws', e, hn, hr⟩ := zeroRun_eq 255 ws h8'
        have hl : ws.length = n + ws'.length := by rw [e]; simp
        obtain ⟨out, henc, hout⟩ := ih ws' (fun x hx => h8' x (by rw [e]; simp [hx]))
          (by simp only [List.length_cons] at hf; omega)
        have hw0 := (tag_zero_iff w hw).mp hz
        refine ⟨0 :: UInt8.ofNat n :: out, by rw [hw0, e]; exact .zero n hn henc, ?_⟩
        intro pre rest hrest
        have hnz : nz w = [] := by rw [hw0]; decide
        match rest, hrest with
        | x :: y :: rest, hrest =>
          simp only [List.length_cons] at hrest
          rw [hunfold pre x (y :: rest) (by rw [hnz]; simp), if_pos hz, hz, hnz, hr]
          simp only [List.nil_append, List.length_nil, List.drop_zero, Nat.add_zero]
          rw [show pre ++ 0 :: y :: rest = (pre ++ [0]) ++ y :: rest by simp,
            put_eq (pre ++ [0]) rest y _ _ (by simp)]
          simp only [Res.ok_bind]
          have := hout (pre ++ [0, UInt8.ofNat n]) rest (by omega)
          simp only [List.append_assoc, List.length_append, List.length_cons, List.length_nil,
            List.cons_append, List.nil_append] at this ⊢
          rw [show pre.length + 1 + 1 = pre.length + (0 + 1 + 1) by omega, this]
          simp only [List.drop_succ_cons]
          rw [show pre.length + (0 + 1 + 1) + out.length = pre.length + (out.length + 1 + 1) by omega]
      · by_cases hff : computeTag (getLE w) = 0xFF
        · -- a run of literal words
          obtain ⟨lits, ws', e, hl, hmax, hr⟩ := litRun_eq 255 ws h8'
          have hlw : ws.length = lits.length + ws'.length := by rw [e]; simp
          obtain ⟨out, henc, hout⟩ := ih ws' (fun x hx => h8' x (by rw [e]; simp [hx]))
            (by simp only [List.length_cons] at hf; omega)
          have hwn := (tag_ff_iff w hw).mp hff
          have hlits8 : ∀ l ∈ lits, l.length = 8 := fun l hl' => h8' l (by rw [e]; simp [hl'])
          refine ⟨_, by rw [e]; exact .lit hw hwn hl hlits8 hmax henc, ?_⟩
          intro pre rest hrest
          have hflat : lits.flatten.length = 8 * lits.length := by
            clear hr hl hmax e hlw hrest
            induction lits with
            | nil => rfl
            | cons l ls ih =>
              have := ih (fun x hx => hlits8 x (by simp [hx]))
              have := hlits8 l (by simp)
              simp only [List.flatten_cons, List.length_append, List.length_cons]; omega
          have hlen : (0xFF :: (w ++ UInt8.ofNat lits.length :: (lits.flatten ++ out))).length
              = 10 + 8 * lits.length + out.length := by
            simp only [List.length_cons, List.length_append, hw, hflat]; omega
          rw [hlen] at hrest ⊢
          obtain ⟨x, rest, rfl⟩ : ∃ x r, rest = x :: r := by
            cases rest with
            | nil => simp at hrest
            | cons x r => exact ⟨x, r, rfl⟩
          simp only [List.length_cons] at hrest
          rw [hunfold pre x rest (by rw [hwn, hw]; omega), if_neg hz, if_pos hff, hff, hwn, hw]
          have hsp : rest.drop 8 = (rest.drop 8).take 1 ++ rest.drop 9 := by
            rw [show rest.drop 9 = (rest.drop 8).drop 1 by rw [List.drop_drop]]
            exact (List.take_append_drop 1 _).symm
          obtain ⟨y, hy⟩ : ∃ y, (rest.drop 8).take 1 = [y] := by
            cases hrd : rest.drop 8 with
            | nil => have := congrArg List.length hrd; simp at this; omega
            | cons y r => exact ⟨y, by simp⟩
          rw [hy] at hsp
          rw [hsp]
          have h1 := hr (pre ++ 0xFF :: (w ++ [y])) (rest.drop 9) (by simp; omega)
          simp only [List.length_append, List.length_cons, hw, List.length_nil, List.append_assoc,
            List.cons_append, List.nil_append] at h1
          simp only [List.append_assoc, List.cons_append, List.nil_append]
          rw [show pre.length + 1 + 8 + 1 = pre.length + (8 + (0 + 1) + 1) by omega, h1]
          simp only [Res.ok_bind]
          have h2 := put_eq (pre ++ 0xFF :: w) (lits.flatten ++ (rest.drop 9).drop (8 * lits.length)) y
            (UInt8.ofNat lits.length) (pre.length + 1 + 8) (by simp [hw])
          simp only [List.append_assoc, List.cons_append] at h2
          rw [h2]
          simp only [Res.ok_bind]
          have h3 := hout (pre ++ 0xFF :: (w ++ UInt8.ofNat lits.length :: lits.flatten))
            ((rest.drop 9).drop (8 * lits.length)) (by simp; omega)
          simp only [List.length_append, List.length_cons, hw, hflat, List.append_assoc,
            List.cons_append] at h3
          rw [show pre.length + (8 + (0 + 1) + 1) + 8 * lits.length
            = pre.length + (8 + (8 * lits.length + 1) + 1) by omega, h3]
          congr 2
          · simp only [List.drop_drop, List.append_assoc, List.cons_append]
            rw [show 10 + 8 * lits.length + out.length = (9 + (8 * lits.length + out.length)) + 1 by omega,
              List.drop_succ_cons]
            congr 6
            congr 1; omega
          · omega
        · -- an ordinary word
          obtain ⟨out, henc, hout⟩ := ih ws h8' (by simp only [List.length_cons] at hf; omega)
          refine ⟨_, .word hw (fun h => hz ((tag_zero_iff w hw).mpr h))
            (fun h => hff ((tag_ff_iff w hw).mpr h)) henc, ?_⟩
          intro pre rest hrest
          simp only [List.length_cons, List.length_append] at hrest ⊢
          obtain ⟨x, rest, rfl⟩ : ∃ x r, rest = x :: r := by
            cases rest with
            | nil => simp at hrest
            | cons x r => exact ⟨x, r, rfl⟩
          simp only [List.length_cons] at hrest
          rw [hunfold pre x rest (by omega), if_neg hz, if_neg hff]
          have h3 := hout (pre ++ computeTag (getLE w) :: nz w) (rest.drop (nz w).length) (by simp; omega)
          simp only [List.length_append, List.length_cons, List.append_assoc, List.cons_append] at h3
          rw [show pre.length + 1 + (nz w).length = pre.length + ((nz w).length + 1) by omega, h3]
          congr 2
          · simp only [List.drop_drop, List.append_assoc, List.cons_append, List.drop_succ_cons]
          · omega

end Claw.Pack
