import Verif.Lemmas.Pack

namespace Claw.Pack

/-! ### Unpacking a packed stream -/

theorem unpackWord_eq (bs : Bytes) (h8 : bs.length = 8) (w : Nat) (src : Bytes) : ∀ (k i : Nat), i + k = 8 →
    ∀ (pre x rest : Bytes), pre.length = w + i → x.length = k →
    unpackWord (computeTag (getLE bs)) k i (pre ++ x ++ rest) w (nz (bs.drop i) ++ src)
      = .ok (pre ++ bs.drop i ++ rest, src) := by
  intro k
  induction k with
  | zero =>
    intro i hi pre x rest _ hx
    rw [List.drop_of_length_le (by omega)]
    have : x = [] := List.length_eq_zero_iff.mp hx
    subst this
    simp [unpackWord, nz]
  | succ k ih =>
    intro i hi pre x rest hp hx
    obtain ⟨y, x, rfl⟩ : ∃ y r, x = y :: r := by
      cases x with
      | nil => simp at hx
      | cons y r => exact ⟨y, r, rfl⟩
    have hd : bs.drop i = bs[i] :: bs.drop (i + 1) := List.drop_eq_getElem_cons (by omega)
    have hbit := tagBit_computeTag bs i (by omega)
    rw [List.getD_eq_getElem?_getD, List.getElem?_eq_getElem (by omega : i < bs.length), Option.getD_some] at hbit
    have hput : ∀ b, put (pre ++ y :: x ++ rest) (w + i) b = .ok (pre ++ [b] ++ x ++ rest) := by
      intro b
      have := put_eq pre (x ++ rest) y b (w + i) hp.symm
      simpa using this
    have hrec := ih (i + 1) (by omega) (pre ++ [bs[i]]) x rest (by simp [hp]; omega) (by simpa using hx)
    simp only [unpackWord, hbit]
    by_cases hz : bs[i] = 0
    · rw [if_neg (by simp [hz]), hput]
      simp only [Res.ok_bind]
      rw [hz] at hrec
      rw [hd, nz_cons_zero _ hz, hrec, hz]
      simp
    · rw [if_pos (by simpa using hz)]
      rw [hd, nz_cons_pos _ hz, List.cons_append]
      simp only [hput, Res.ok_bind]
      rw [hrec]
      simp

theorem putZeros_eq : ∀ (n : Nat) (pre x rest : Bytes) (w : Nat), pre.length = w → x.length = n →
    putZeros n (pre ++ x ++ rest) w = .ok (pre ++ zeros n ++ rest) := by
  intro n
  induction n with
  | zero =>
    intro pre x rest w _ hx
    have : x = [] := List.length_eq_zero_iff.mp hx
    subst this
    simp [putZeros, zeros]
  | succ n ih =>
    intro pre x rest w hp hx
    obtain ⟨y, x, rfl⟩ : ∃ y r, x = y :: r := by
      cases x with
      | nil => simp at hx
      | cons y r => exact ⟨y, r, rfl⟩
    have hput := put_eq pre (x ++ rest) y 0 w hp.symm
    have := ih (pre ++ [0]) x rest (w + 1) (by simp [hp]) (by simpa using hx)
    simp only [List.append_assoc, List.cons_append, List.nil_append] at this hput ⊢
    rw [putZeros, hput]
    simp only [Res.ok_bind]
    rw [this]
    simp [zeros, List.replicate_succ]

theorem split3 (rest : Bytes) (a b : Nat) : rest = rest.take a ++ (rest.drop a).take b ++ rest.drop (a + b) := by
  rw [List.append_assoc, ← List.drop_drop, List.take_append_drop, List.take_append_drop]

theorem unpackLoop_eq {ws : List Bytes} {out : Bytes} (h : Enc ws out) : ∀ (fuel : Nat) (pre rest : Bytes),
    out.length ≤ fuel → 8 * ws.length ≤ rest.length →
    unpackLoop fuel out (pre ++ rest) pre.length
      = .ok (some (pre ++ ws.flatten ++ rest.drop (8 * ws.length), pre.length + 8 * ws.length)) := by
  induction h with
  | nil => intro fuel pre rest _ _; cases fuel <;> simp [unpackLoop]
  | @zero ws out n hn henc ih =>
    intro fuel pre rest hf hr
    simp only [List.length_cons, List.length_append, List.length_replicate] at hf hr
    cases fuel with
    | zero => omega
    | succ fuel =>
      have hwd := unpackWord_eq (zeros 8) (by simp) pre.length (UInt8.ofNat n :: out) 8 0 (by omega) pre
        (rest.take 8) (rest.drop 8) (by simp) (by simp; omega)
      rw [List.append_assoc, List.take_append_drop] at hwd
      rw [show computeTag (getLE (zeros 8)) = 0 by decide, show nz ((zeros 8).drop 0) = [] by decide,
        List.nil_append] at hwd
      rw [unpackLoop]
      rw [if_neg (by simp; omega), hwd]
      simp only [Res.ok_bind, if_true]
      have hc : (UInt8.ofNat n).toNat = n := by simp; omega
      rw [hc, if_neg (by simp; omega)]
      have hpz := putZeros_eq (n * 8) (pre ++ zeros 8) ((rest.drop 8).take (n * 8)) (rest.drop (8 + n * 8))
        (pre.length + 8) (by simp) (by simp; omega)
      have hsp := split3 rest 8 (n * 8)
      rw [List.append_assoc (pre ++ zeros 8), ← List.drop_drop, List.take_append_drop] at hpz
      have hz8 : (zeros 8).drop 0 = zeros 8 := rfl
      rw [hz8, hpz]
      simp only [Res.ok_bind]
      have := ih fuel (pre ++ zeros 8 ++ zeros (n * 8)) (rest.drop (8 + n * 8)) (by omega) (by simp; omega)
      simp only [List.length_append, zeros_length] at this
      rw [List.drop_drop] at *
      rw [this]
      have hrep : (List.replicate n (zeros 8)).flatten = zeros (n * 8) := by
        clear hpz this hc hwd hf hr hn hsp
        induction n with
        | zero => rfl
        | succ n ih => rw [List.replicate_succ, List.flatten_cons, ih, zeros, zeros, zeros,
            List.replicate_append_replicate]; congr 1; omega
      simp only [List.flatten_cons, List.flatten_append, hrep, List.append_assoc, List.drop_drop,
        List.length_cons, List.length_append, List.length_replicate]
      rw [show 8 + n * 8 + 8 * ws.length = 8 * (n + ws.length + 1) by omega,
        show pre.length + 8 + n * 8 + 8 * ws.length = pre.length + 8 * (n + ws.length + 1) by omega]
  | @lit w lits ws out hw hn hl hlits _ henc ih =>
    intro fuel pre rest hf hr
    have hflat : lits.flatten.length = 8 * lits.length := by
      clear hl hf hr
      rename_i hmax
      clear hmax
      induction lits with
      | nil => rfl
      | cons l ls ih =>
        have := ih (fun x hx => hlits x (by simp [hx]))
        have := hlits l (by simp)
        simp only [List.flatten_cons, List.length_append, List.length_cons]; omega
    simp only [List.length_cons, List.length_append, hw, hflat] at hf hr
    cases fuel with
    | zero => omega
    | succ fuel =>
      have htag := (tag_ff_iff w hw).mpr hn
      have hwd := unpackWord_eq w hw pre.length (UInt8.ofNat lits.length :: (lits.flatten ++ out)) 8 0 (by omega) pre
        (rest.take 8) (rest.drop 8) (by simp) (by simp; omega)
      rw [List.append_assoc, List.take_append_drop, htag, List.drop_zero, hn] at hwd
      rw [unpackLoop]
      rw [if_neg (by simp; omega), hwd]
      simp only [Res.ok_bind]
      have hc : (UInt8.ofNat lits.length).toNat = lits.length := by simp; omega
      rw [if_neg (by decide), if_pos trivial]
      simp only [hc]
      rw [if_neg (by simp [hflat]; omega), if_neg (by simp [hw]; omega)]
      have ht : (lits.flatten ++ out).take (lits.length * 8) = lits.flatten :=
        List.take_left' (by omega)
      have hdp : (lits.flatten ++ out).drop (lits.length * 8) = out := List.drop_left' (by omega)
      rw [ht, hdp]
      have hgc := goCopy_fit (pre ++ w) ((rest.drop 8).take (lits.length * 8)) (rest.drop (8 + lits.length * 8))
        lits.flatten (by rw [hflat, List.length_take, List.length_drop]; omega)
      rw [List.append_assoc (pre ++ w), ← List.drop_drop, List.take_append_drop] at hgc
      rw [show pre.length + 8 = (pre ++ w).length by simp [hw], hgc]
      have := ih fuel (pre ++ w ++ lits.flatten) (rest.drop (8 + lits.length * 8)) (by omega) (by simp; omega)
      rw [List.length_append (bs := lits.flatten), hflat] at this
      rw [List.drop_drop, show (pre ++ w).length + lits.length * 8 = (pre ++ w).length + 8 * lits.length by omega,
        this]
      simp only [List.flatten_cons, List.flatten_append, List.append_assoc, List.drop_drop,
        List.length_cons, List.length_append, hw]
      rw [show 8 + lits.length * 8 + 8 * ws.length = 8 * (lits.length + ws.length + 1) by omega,
        show pre.length + 8 + 8 * lits.length + 8 * ws.length = pre.length + 8 * (lits.length + ws.length + 1) by omega]
  | @word w ws out hw hz hn henc ih =>
    intro fuel pre rest hf hr
    simp only [List.length_cons, List.length_append] at hf hr
    cases fuel with
    | zero => omega
    | succ fuel =>
      have hwd := unpackWord_eq w hw pre.length out 8 0 (by omega) pre
        (rest.take 8) (rest.drop 8) (by simp) (by simp; omega)
      rw [List.append_assoc, List.take_append_drop, List.drop_zero] at hwd
      rw [unpackLoop]
      rw [if_neg (by simp; omega), hwd]
      simp only [Res.ok_bind]
      rw [if_neg (fun e => hz ((tag_zero_iff w hw).mp e)), if_neg (fun e => hn ((tag_ff_iff w hw).mp e))]
      have := ih fuel (pre ++ w) (rest.drop 8) (by omega) (by simp; omega)
      rw [List.length_append, hw] at this
      rw [this]
      simp only [List.flatten_cons, List.append_assoc, List.drop_drop, List.length_cons]
      rw [show 8 + 8 * ws.length = 8 * (ws.length + 1) by omega,
        show pre.length + 8 + 8 * ws.length = pre.length + 8 * (ws.length + 1) by omega]

/-! ### Hostile input -/

/-- Bits of the tag from `i` on, `k` of them. -/
def needFrom (tag : UInt8) : Nat → Nat → Nat
  | 0, _ => 0
  | k + 1, i => (if tagBit tag i then 1 else 0) + needFrom tag k (i + 1)

theorem put_length {dst : Bytes} {w : Nat} (b : UInt8) (h : w < dst.length) :
    ∃ d, put dst w b = .ok d ∧ d.length = dst.length := by
  exact ⟨dst.set w b, by rw [put, if_pos h], by simp⟩

theorem unpackWord_total (tag : UInt8) (w : Nat) : ∀ (k i : Nat) (dst src : Bytes), i + k = 8 →
    w + 8 ≤ dst.length →
    (needFrom tag k i ≤ src.length → ∃ dst', unpackWord tag k i dst w src
      = .ok (dst', src.drop (needFrom tag k i)) ∧ dst'.length = dst.length) ∧
    (src.length < needFrom tag k i → unpackWord tag k i dst w src = .panic) := by
  intro k
  induction k with
  | zero =>
    intro i dst src _ _
    exact ⟨fun _ => ⟨dst, by simp [unpackWord, needFrom], rfl⟩, fun h => by simp [needFrom] at h⟩
  | succ k ih =>
    intro i dst src hi hw
    by_cases hb : tagBit tag i = true
    · simp only [needFrom, hb, if_true, unpackWord]
      cases src with
      | nil => exact ⟨fun h => by simp at h, fun _ => rfl⟩
      | cons b src =>
        obtain ⟨d, hd, hl⟩ := put_length (dst := dst) (w := w + i) b (by omega)
        obtain ⟨h1, h2⟩ := ih (i + 1) d src (by omega) (by omega)
        simp only [hd, Res.ok_bind, List.length_cons]
        refine ⟨fun h => ?_, fun h => h2 (by omega)⟩
        obtain ⟨d', e, hl'⟩ := h1 (by omega)
        refine ⟨d', ?_, by omega⟩
        rw [e, show 1 + needFrom tag k (i + 1) = needFrom tag k (i + 1) + 1 by omega, List.drop_succ_cons]
    · obtain ⟨d, hd, hl⟩ := put_length (dst := dst) (w := w + i) 0 (by omega)
      obtain ⟨h1, h2⟩ := ih (i + 1) d src (by omega) (by omega)
      simp only [needFrom, hb, Bool.false_eq_true, if_false, unpackWord, hd, Res.ok_bind, Nat.zero_add]
      refine ⟨fun h => ?_, h2⟩
      obtain ⟨d', e, hl'⟩ := h1 h
      exact ⟨d', e, by omega⟩

theorem putZeros_total : ∀ (n : Nat) (dst : Bytes) (w : Nat), w + n ≤ dst.length →
    ∃ d, putZeros n dst w = .ok d ∧ d.length = dst.length := by
  intro n
  induction n with
  | zero => intro dst w _; exact ⟨dst, rfl, rfl⟩
  | succ n ih =>
    intro dst w h
    obtain ⟨d, hd, hl⟩ := put_length (dst := dst) (w := w) 0 (by omega)
    obtain ⟨d', hd', hl'⟩ := ih d (w + 1) (by omega)
    exact ⟨d', by rw [putZeros, hd]; simpa using hd', by omega⟩

end Claw.Pack
