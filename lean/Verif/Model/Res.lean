/-!
# Outcomes of a Go call

`ok a` : the call returned; `panic` : a run-time panic (explicit or index out of range);
`hang` : the call never returns.
-/

namespace Claw

inductive Res (α : Type) where
  | ok (a : α)
  | panic
  | hang
  deriving DecidableEq, Repr

namespace Res

def bind {α β : Type} : Res α → (α → Res β) → Res β
  | ok a, f => f a
  | panic, _ => panic
  | hang, _ => hang

def map {α β : Type} (f : α → β) : Res α → Res β
  | ok a => ok (f a)
  | panic => panic
  | hang => hang

/-- A Go function whose only failure is a panic. -/
def ofOption {α : Type} : Option α → Res α
  | some a => ok a
  | none => panic

instance : Monad Res where
  pure := ok
  bind := bind

@[simp] theorem pure_eq {α} (a : α) : (pure a : Res α) = ok a := rfl
@[simp] theorem ok_bind {α β} (a : α) (f : α → Res β) : (ok a >>= f) = f a := rfl
@[simp] theorem panic_bind {α β} (f : α → Res β) : (panic >>= f) = panic := rfl
@[simp] theorem hang_bind {α β} (f : α → Res β) : (hang >>= f) = hang := rfl
@[simp] theorem ofOption_some {α} (a : α) : ofOption (some a) = ok a := rfl
@[simp] theorem ofOption_none {α} : ofOption (none : Option α) = panic := rfl
@[simp] theorem map_ok {α β} (f : α → β) (a : α) : map f (ok a) = ok (f a) := rfl

theorem bind_eq_ok {α β} {x : Res α} {f : α → Res β} {b : β} :
    (x >>= f) = ok b ↔ ∃ a, x = ok a ∧ f a = ok b := by
  cases x <;> simp [Bind.bind, bind]

end Res
end Claw
