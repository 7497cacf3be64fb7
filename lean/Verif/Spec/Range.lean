import Verif.Model.Bytes

/-!
# Which addresses a range covers, bit by bit

An address has 4 or 16 bytes.  An IPv4 address is the same as its IPv4-mapped IPv6 address.  A
range is an address and the number of leading bits that matter.
-/

namespace Claw.Spec.Range

open Claw

/-- The bits of a byte, highest first. -/
def byteBits (b : UInt8) : List Bool :=
  [b.toNat.testBit 7, b.toNat.testBit 6, b.toNat.testBit 5, b.toNat.testBit 4,
   b.toNat.testBit 3, b.toNat.testBit 2, b.toNat.testBit 1, b.toNat.testBit 0]

/-- The bits of some bytes, in network order. -/
def bits (b : Bytes) : List Bool := b.flatMap byteBits

/-- The prefix `::ffff:0:0/96` of mapped addresses. -/
def mapped : Bytes := List.replicate 10 0 ++ [255, 255]

/-- The 16 bytes of an address. -/
def sixteen (b : Bytes) : Bytes := if b.length = 4 then mapped ++ b else b

/-- An IPv4 address, in either form. -/
def V4 (b : Bytes) : Prop := (sixteen b).take 12 = mapped

/-- An address of 4 or 16 bytes. -/
def IsAddr (b : Bytes) : Prop := b.length = 4 ∨ b.length = 16

/-- `ip` is in the range of the first `n` bits of `a`.  A range written for IPv6 covers IPv4
addresses only if it is inside the range of mapped addresses. -/
def InRange (a : Bytes) (n : Nat) (ip : Bytes) : Prop :=
  let k := if a.length = 4 then 96 + n else n
  (bits (sixteen ip)).take k = (bits (sixteen a)).take k ∧ (V4 ip → 96 ≤ k)

end Claw.Spec.Range
