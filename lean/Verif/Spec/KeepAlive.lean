import Verif.Model.KeepAlive

/-!
# When a peer is alive
-/

namespace Claw.AliveSpec

open Claw.Alive

/-- Nothing is received after the instant `t`. -/
def SilentAfter (w : World) (t : Nat) : Prop := ∀ n, t < n → w.recv n = []

/-- The pong for a ping sent at `p` comes in time. -/
def Answered (w : World) (timeout p : Nat) : Prop := ∃ m, p < m ∧ m < p + timeout ∧ Msg.pong ∈ w.recv m

/-- Something is received, or the connection is made, in every `interval`. -/
def Busy (w : World) (interval : Nat) : Prop := ∀ n, ∃ m, m ≤ n ∧ n < m + interval ∧ (m = 0 ∨ w.recv m ≠ [])

end Claw.AliveSpec
