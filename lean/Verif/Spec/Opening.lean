import Verif.Model.Opening

/-!
# Specification of opening a session

From the list of what happened: the registrations in order and whether draining began.
-/

namespace Claw.Opening

open Claw

/-- The registrations, in order. -/
def regsOf : List Ev → List (Registry.Reg Handler)
  | [] => []
  | .register r :: es => r :: regsOf es
  | _ :: es => regsOf es

/-- Draining has begun. -/
def Drained (es : List Ev) : Prop := ∃ e ∈ es, match e with | .drain => True | _ => False

/-- The number of calls. -/
def opens : List Ev → Nat
  | [] => 0
  | .open _ :: es => opens es + 1
  | _ :: es => opens es

/-- The handler that a call should reach: the first registered for its names, if it is of the kind called. -/
def Reaches (es : List Ev) (c : Call) (h : Handler) : Prop :=
  ¬ Drained es ∧ Registry.firstFor (regsOf es) c.pkg c.service c.call = some h ∧ h.kind = c.kind

/-- Names without `/` (C34). -/
def PlainNames (es : List Ev) (c : Call) : Prop :=
  (∀ r ∈ regsOf es, Registry.Plain r.pkg r.service) ∧ Registry.Plain c.pkg c.service

end Claw.Opening
