import Verif.Model.Maps

/-!
# Specification of maps

A map is a function from keys to optional values. Nothing here mentions slices or searching.
-/

namespace Claw

/-- Two keys are the same key. Go's `==`, except that all NaNs are one key: for floats the two zeros
are the same number. -/
def KTy.Same : (t : KTy) → t.Val → t.Val → Prop
  | .num .f32, a, b => a = b ∨ (F32.isNaN a = true ∧ F32.isNaN b = true) ∨
      (F32.isZero a = true ∧ F32.isZero b = true)
  | .num .f64, a, b => a = b ∨ (F64.isNaN a = true ∧ F64.isNaN b = true) ∨
      (F64.isZero a = true ∧ F64.isZero b = true)
  | _, a, b => a = b

/-- The order of the keys: false before true, strings by the first byte that differs (a prefix first),
numbers by value with NaN before all numbers. -/
def KTy.Before : (t : KTy) → t.Val → t.Val → Prop
  | .bool, a, b => a = false ∧ b = true
  | .str, a, b => ∃ p : Bytes, (a = p ∧ ∃ y ys, b = p ++ y :: ys) ∨
      ∃ x y xs ys, a = p ++ x :: xs ∧ b = p ++ y :: ys ∧ x < y
  | .num .i8, a, b => a.toInt < b.toInt
  | .num .i16, a, b => a.toInt < b.toInt
  | .num .i32, a, b => a.toInt < b.toInt
  | .num .i64, a, b => a.toInt < b.toInt
  | .num .u8, a, b => a.toNat < b.toNat
  | .num .u16, a, b => a.toNat < b.toNat
  | .num .u32, a, b => a.toNat < b.toNat
  | .num .u64, a, b => a.toNat < b.toNat
  | .num .f32, a, b => F32.isNaN b = false ∧ (F32.isNaN a = true ∨ F32.value a < F32.value b)
  | .num .f64, a, b => F64.isNaN b = false ∧ (F64.isNaN a = true ∨ F64.value a < F64.value b)

open Classical in
/-- The effect of a call on a mathematical map. -/
noncomputable def MOp.spec {V : Type} (t : KTy) : MOp t.Val V → (t.Val → Option V) → t.Val → Option V
  | .set k v, f => fun k' => if t.Same k k' then some v else f k'
  | .delete k, f => fun k' => if t.Same k k' then none else f k'
  | .clear, _ => fun _ => none

/-- The effect of a sequence of calls. -/
noncomputable def specMOps {V : Type} (t : KTy) :
    List (MOp t.Val V) → (t.Val → Option V) → t.Val → Option V
  | [], f => f
  | op :: ops, f => specMOps t ops (op.spec t f)

/-- A map object shows the mathematical map `f`: `Get` and `Has` answer as `f` does, the keys are
strictly in order and no two of them are the same, every listed key has the value at the same
position, and every key of `f` is listed. -/
structure ShowsMap {V : Type} (t : KTy) (m : GoMap t.Val V) (f : t.Val → Option V) : Prop where
  get : ∀ k, m.get t.compare k = .ok (f k)
  has : ∀ k, m.has t.compare k = .ok (f k).isSome
  sorted : m.keys.Pairwise t.Before
  distinct : m.keys.Pairwise fun a b => ¬ t.Same a b
  aligned : m.vals.length = m.keys.length ∧
    ∀ (i : Nat) (k : t.Val), m.keys[i]? = some k → ∃ v, m.vals[i]? = some v ∧ f k = some v
  complete : ∀ k, (f k).isSome = true → ∃ k' ∈ m.keys, t.Same k' k
  len : m.len = m.keys.length

end Claw
