import Verif.Model.Deadline

/-! # What is expected of the deadline of a call -/

namespace Claw.Deadline

open Claw.ErrCode (Err)

/-- A handler that gives up at once when its context has ended. -/
def Obeys (h : Handler) : Prop := ∀ d t req, d ≤ t → (h (some d) t req).1 = .error .deadline

end Claw.Deadline
