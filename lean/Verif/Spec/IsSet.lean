import Verif.Spec.Record

/-!
# Specification: which fields were set explicitly
-/

namespace Claw

/-- The call gives field `i` a value that is not zero with one of the setters that take part in
tracking: scalars, strings, bytes, nested structs, Any and lists of Any. -/
def Op.marks (i : Nat) : Op → Bool
  | .set fn t v => fn == i && !t.isList && !t.isMap && !t.isZero v
  | .nest fn m ops => fn == i && !(specStruct (specRun m ops)).isAbsent
  | _ => false

/-- Some call did so. -/
def marked (ops : List Op) (i : Nat) : Bool := ops.any (Op.marks i)

/-- Bytes of the bit field that carry bits: one per 7 fields, at least one. -/
def isSetBytes (m : Nat) : Nat := max 1 ((m + 6) / 7)

/-- `b` is the bit field of an `m`-field struct in which `p` tells the fields that are set: 7 fields
per byte, the top bit of a byte says that another one follows, filled up to whole words. -/
def IsSetField (m : Nat) (p : Nat → Bool) (b : Bytes) : Prop :=
  b.length = up8 (isSetBytes m) ∧
  ∀ (j k : Nat) (x : UInt8), b[j]? = some x → k < 8 →
    x.toNat.testBit k =
      if k = 7 then decide (j + 1 < isSetBytes m) else decide (7 * j + k < m) && p (7 * j + k)

/-- The third byte of the bit field, which a decoder takes for a type, is that of a type whose size is
in the header, and the header says 0. -/
def Freezes (m : Nat) (p : Nat → Bool) : Prop :=
  15 ≤ m ∧ m ≤ 21 ∧
    DeclaresNothing ((List.range 7).foldl (fun n k => n + if decide (14 + k < m) && p (14 + k) then 2 ^ k else 0) 0) 0

instance (ft f : Nat) : Decidable (DeclaresNothing ft f) := by unfold DeclaresNothing; infer_instance
instance (m : Nat) (p : Nat → Bool) : Decidable (Freezes m p) := by unfold Freezes; infer_instance

end Claw
