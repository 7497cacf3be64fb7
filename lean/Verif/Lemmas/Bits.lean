/-!
# Bits of a byte
-/

namespace Claw

/-- Setting bit `a` of a byte sets bit `a` and no other. The whole domain is enumerated. -/
theorem bit_or (x : UInt8) : ∀ (a b : Nat), a < 8 → b < 8 →
    (((x ||| (1 <<< UInt8.ofNat a)) &&& (1 <<< UInt8.ofNat b)) != 0)
      = ((x &&& (1 <<< UInt8.ofNat b)) != 0 || decide (a = b)) := by
  have key : ∀ (a b : Fin 8) (x : Fin 256),
      (((UInt8.ofNat x.val ||| (1 <<< UInt8.ofNat a.val)) &&& (1 <<< UInt8.ofNat b.val)) != 0)
      = ((UInt8.ofNat x.val &&& (1 <<< UInt8.ofNat b.val)) != 0 || decide (a.val = b.val)) := by
    decide +kernel
  intro a b ha hb
  have := key ⟨a, ha⟩ ⟨b, hb⟩ ⟨x.toNat, x.toNat_lt⟩
  simpa using this

end Claw
