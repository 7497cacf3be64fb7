import Verif.Model.Bytes

namespace Claw

@[simp] theorem putLE_length (n v : Nat) : (putLE n v).length = n := by
  induction n generalizing v with
  | zero => rfl
  | succ n ih => simp [putLE, ih]

@[simp] theorem getLE_putLE (n v : Nat) : getLE (putLE n v) = v % 256 ^ n := by
  induction n generalizing v with
  | zero => simp [putLE, getLE, Nat.mod_one]
  | succ n ih =>
    simp only [putLE, getLE, ih, UInt8.toNat_ofNat']
    rw [show 256 ^ (n + 1) = 256 * 256 ^ n from Nat.pow_succ' .., Nat.mod_mul]

theorem getLE_putLE_of_lt {n v : Nat} (h : v < 256 ^ n) : getLE (putLE n v) = v := by
  rw [getLE_putLE, Nat.mod_eq_of_lt h]

theorem getLE_lt (bs : Bytes) : getLE bs < 256 ^ bs.length := by
  induction bs with
  | nil => simp [getLE]
  | cons b bs ih =>
    have := b.toNat_lt
    simp only [getLE, List.length_cons, Nat.pow_succ]
    omega

theorem putLE_getLE (bs : Bytes) : putLE bs.length (getLE bs) = bs := by
  induction bs with
  | nil => rfl
  | cons b bs ih =>
    have hb := b.toNat_lt
    simp only [List.length_cons, putLE, getLE]
    have h1 : (b.toNat + 256 * getLE bs) / 256 = getLE bs := by omega
    rw [h1, ih]
    congr 1
    apply UInt8.toNat.inj
    simp

theorem putLE_mod (n v : Nat) : putLE n (v % 256 ^ n) = putLE n v := by
  rw [← getLE_putLE n v]
  conv => lhs; rw [← putLE_length n v]
  simpa using putLE_getLE (putLE n v)

theorem getLE_append (a b : Bytes) : getLE (a ++ b) = getLE a + 256 ^ a.length * getLE b := by
  induction a with
  | nil => simp [getLE]
  | cons x a ih =>
    simp only [List.cons_append, getLE, ih, List.length_cons, Nat.pow_succ]
    rw [Nat.mul_add, Nat.mul_comm (256 ^ a.length) 256, Nat.mul_assoc]
    omega

theorem putLE_add (a b v : Nat) : putLE (a + b) v = putLE a v ++ putLE b (v / 256 ^ a) := by
  induction a generalizing v with
  | zero => simp [putLE]
  | succ a ih =>
    have : a + 1 + b = (a + b) + 1 := by omega
    rw [this]
    simp only [putLE, ih, List.cons_append]
    rw [Nat.div_div_eq_div_mul, Nat.pow_succ, Nat.mul_comm (256 ^ a) 256]

@[simp] theorem getLE_zeros (n : Nat) : getLE (zeros n) = 0 := by
  induction n with
  | zero => rfl
  | succ n ih => simp only [zeros, List.replicate_succ, getLE] at *; simp [ih]

@[simp] theorem zeros_length (n : Nat) : (zeros n).length = n := by simp [zeros]

theorem putLE_zero (n : Nat) : putLE n 0 = zeros n := by
  induction n with
  | zero => rfl
  | succ n ih => simp [putLE, ih, zeros, List.replicate_succ]

theorem slice_length (d : Bytes) (a b : Nat) : (slice d a b).length = min b d.length - a := by
  simp [slice]

theorem slice_append_left (p x : Bytes) : slice (p ++ x) 0 p.length = p := by
  simp [slice]

theorem slice_mid (p x q : Bytes) : slice (p ++ x ++ q) p.length (p.length + x.length) = x := by
  simp [slice, List.take_append, List.take_of_length_le]

theorem goCopy_length (dst : Bytes) (off : Nat) (src : Bytes) (h : off ≤ dst.length) :
    (goCopy dst off src).length = dst.length := by
  simp [goCopy]; omega

/-- Copying a string that fits replaces exactly the window it covers. -/
theorem goCopy_fit (p x q src : Bytes) (h : src.length = x.length) :
    goCopy (p ++ x ++ q) p.length src = p ++ src ++ q := by
  have h2 : List.take ((p ++ x ++ q).length - p.length) src = src := by
    apply List.take_of_length_le; simp; omega
  simp only [goCopy, h2]
  simp [List.drop_append, h, List.append_assoc]

end Claw
