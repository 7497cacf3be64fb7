import Verif.Model.Transport

/-!
# What a stream transport should do

Vocabulary of C104 and C105 over the history of a transport: nothing here looks at locks.
-/

namespace Claw.Transport

/-- The messages whose `Write` on connection `c` returned no error, in the order of the
returns. -/
def on (c : Nat) (l : List (Nat × Tid × Bytes)) : List Bytes :=
  (l.filter fun e => e.1 = c).map fun e => e.2.2

/-- The messages whose `Write` in goroutine `t` returned no error, in the order of the returns. -/
def byTid (t : Tid) (l : List (Nat × Tid × Bytes)) : List Bytes :=
  (l.filter fun e => e.2.1 = t).map fun e => e.2.2

/-- The `Write` calls without an error among the finished calls of a goroutine. -/
def okWrites : List (Op × Ret) → List Bytes
  | [] => []
  | (.write p, .ok) :: r => p :: okWrites r
  | _ :: r => okWrites r

/-- Goroutine `t` is inside a call. -/
def Busy (s : St) (t : Tid) : Prop := s.pc t ≠ .idle

/-- Goroutine `t` is waiting for bytes or for a dial, that is for the other side. -/
def OnNet (s : St) (t : Tid) : Prop :=
  (∃ c, s.pc t = .rRead c) ∨ (∃ c p k, s.pc t = .wPut c p k) ∨ s.pc t = .kDial

/-- One goroutine holds the lock of the writer and wants the lock of the connection, another one
holds that and wants the first. -/
def Deadlock (s : St) : Prop :=
  ∃ t u p, s.pc t = .wErr p ∧ (s.pc u = .cWait ∨ s.pc u = .kWait ∨ s.pc u = .kSet)

end Claw.Transport
