import Verif.Spec.ListCache

/-!
# What the property of C146 speaks of
-/

namespace Claw

/-- The calls leave the value of field `fn` as it is, and none of them changes the room taken by the fields
before it. -/
def Still (fn : Nat) : List Op → List Val → Prop
  | [], _ => True
  | op :: ops, r => (op.spec r).getD fn .absent = r.getD fn .absent ∧
      sizes ((op.spec r).take fn) = sizes (r.take fn) ∧ Still fn ops (op.spec r)

/-- The calls concern fields behind `fn`. -/
def Later (fn : Nat) (ops : List Op) : Prop := ∀ op ∈ ops, ∀ n, op.field = some n → fn < n

end Claw
