import Verif.Model.Release
import Verif.Spec.Record

/-!
# What programs may do with pooled structs
-/

namespace Claw.Release

/-- The calls the contract of the library allows: pools hand out what they hold, structs that are released are not used, fields
are those of the schema and structs stay below 4 GiB. -/
def Allowed (fields : Nat → Nat) (s : State) : Act → Prop
  | .new k g i => fields k ≤ 65536 ∧ (∀ a, g = some a → (k, a) ∈ s.freeSegs) ∧ (∀ b, i = some b → (k, b) ∈ s.freeIdxs)
  | .call h op => ∃ o, s.objs h = some o ∧ Within (fields o.kind) (o.calls ++ [op])
  | .embed h fn c => h ≠ c ∧ ∃ o p, s.objs h = some o ∧ s.objs c = some p ∧
      Within (fields o.kind) (o.calls ++ [.nest fn (fields p.kind) p.calls])
  | .release h => ∃ o, s.objs h = some o

/-- The states a program that keeps to the contract can reach. -/
inductive Reaches (fields : Nat → Nat) : State → Prop
  | start : Reaches fields init
  | next {s s' : State} {act : Act} : Reaches fields s → Allowed fields s act → step fields s act = .ok s' → Reaches fields s'

end Claw.Release
