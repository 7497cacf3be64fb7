import Verif.Props.Compress
import Verif.Model.Limits

/-! # What a size limit means -/

namespace Claw.Limits

open Claw

/-- A message of `n` bytes is over the limit; zero and less mean no limit. -/
def Over (limit : Int) (n : Nat) : Prop := 0 < limit ∧ limit < n

instance (l : Int) (n : Nat) : Decidable (Over l n) := inferInstanceAs (Decidable (_ ∧ _))

/-- The receiver takes all that the sender may send. -/
def Covers (recv send : Int) : Prop := ∀ n, Over recv n → Over send n

/-- Both ends agree on both algorithms (C44). -/
structure Agreed (c s : End) : Prop where
  up : Compress.Agree c.reg s.reg c.alg
  down : Compress.Agree s.reg c.reg s.alg

/-- Nothing is on its way and no request waits for the handler. -/
def Quiet (w : World) : Prop := w.up = [] ∧ w.inbox = [] ∧ w.down = []

end Claw.Limits
