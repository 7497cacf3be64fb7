/-!
# Graphs of imports
-/

namespace Claw.Graph

variable {α : Type}

/-- `b` can be reached from `a` over imports. -/
inductive Reach (e : α → List α) (a : α) : α → Prop where
  | refl : Reach e a a
  | step {b c : α} : Reach e a b → c ∈ e b → Reach e a c

/-- `a` imports itself, directly or through others. -/
def Cyclic (e : α → List α) (a : α) : Prop := ∃ d ∈ e a, Reach e d a

theorem Reach.trans {e : α → List α} {a b c : α} (h : Reach e a b) (h' : Reach e b c) : Reach e a c := by
  induction h' with
  | refl => exact h
  | step _ hm ih => exact .step ih hm

theorem Reach.head {e : α → List α} {a b c : α} (h : b ∈ e a) (h' : Reach e b c) : Reach e a c :=
  Reach.trans (.step .refl h) h'

theorem Reach.cases_head {e : α → List α} {a c : α} (h : Reach e a c) : a = c ∨ ∃ b ∈ e a, Reach e b c := by
  induction h with
  | refl => exact .inl rfl
  | step _ hm ih =>
    rcases ih with rfl | ⟨b, hb, h⟩
    · exact .inr ⟨_, hm, .refl⟩
    · exact .inr ⟨b, hb, .step h hm⟩

/-- Nothing that can be reached from a point without infinite ways from it is on a cycle. -/
theorem acyclic_of_acc {e : α → List α} {a : α} (h : Acc (fun d p => d ∈ e p) a) : ∀ b, Reach e a b → ¬ Cyclic e b := by
  induction h with
  | intro a _ ih =>
    intro b hb
    rcases hb.cases_head with rfl | ⟨d, hd, hr⟩
    · rintro ⟨d, hd, hr⟩
      exact ih d hd a hr ⟨d, hd, hr⟩
    · exact ih d hd b hr

end Claw.Graph
