import Verif.Model.Link

/-!
# What is asked of generated packages in one program
-/

namespace Claw.Link

/-- The struct types of a program: path and name. -/
def Types (ps : List Pkg) (t : Str × Str) : Prop := ∃ p ∈ ps, p.path = t.1 ∧ t.2 ∈ p.structs

/-- SHAKE128 has no collision among what is hashed for the struct types of the program and `t`. -/
def NoCollision {H : Type} (hash : Str → H) (ps : List Pkg) (t : Str × Str) : Prop :=
  ∀ t', Types ps t' → hash (identity t'.1 t'.2) = hash (identity t.1 t.2) → identity t'.1 t'.2 = identity t.1 t.2

/-- Names of structs have no dots: the compiler takes only letters and numbers. -/
def Plain (name : Str) : Prop := 46 ∉ name

/-- The tables of package `unicode` as far as a dot goes: its byte is read as the rune of the dot, and that is no letter and no number. -/
structure DotOk (u : Claw.Idl.Uni) : Prop where
  rune : ∀ s : Str, 46 ∈ s → 46 ∈ u.runes s
  letter : u.isLetter 46 = false
  number : u.isNumber 46 = false

end Claw.Link
