import Verif.Model.Conc

/-! # What goroutines that read a struct may expect -/

namespace Claw.Conc

open Claw

/-- What a getter finds when no other goroutine is there: struct.go:511-518 by `St.fieldOffset`. -/
def alone (s : St) (f : Nat) : Option (Nat × Nat) :=
  match s.fieldOffset f with
  | .ok (r, _) => some r
  | _ => none

/-- No field of the mapping is in the message twice. -/
def Once (m : Nat) (es : List (Nat × Entry)) : Prop := ((es.map (·.1)).filter (· < m)).Nodup

end Claw.Conc
