import Verif.Spec.Graph

/-!
# Preparing and checking the descriptions of structs

`Map.Init`, `Map.MustValidate` and `FieldDescr.Validate` of `/repo/clawc/languages/go/mapping/mapping.go`. A program has
descriptions of structs, which point at each other; here they are numbered, and `g v` are the fields of description `v`.
Both functions are recursive over pointers, so the model has a bound on the depth of the calls and answers `none` if the
bound is met: a call ends exactly if some bound is enough. Left out: names and texts of errors, and the four hooks, of
which only that they run is kept (they only write tables of the description they are given).
-/

namespace Claw.Prepare

/-- mapping.go:56-93 `FieldDescr`, as far as it matters. Types are numbered as in field.go:8-46. -/
structure Field where
  ty : Nat
  self : Bool := false
  mapping : Option Nat := none
  isMap : Bool := false
  keyTy : Nat := 0
  valTy : Nat := 0
  valMapping : Option Nat := none
  deriving DecidableEq, Repr

/-- mapping.go:168-175: the descriptions `Init` is called for, in order. -/
def targets (v : Nat) (fs : List Field) : List Nat :=
  fs.flatMap fun f => (f.mapping.toList ++ f.valMapping.toList).filter (· ≠ v)

/-- Calls one after another, until one does not end. -/
def calls (run : Nat → List Nat → Option (List Nat)) : List Nat → List Nat → Option (List Nat)
  | [], done => some done
  | w :: ws, done =>
    match run w done with
    | none => none
    | some done => calls run ws done

/-- mapping.go:146-177 `Init`. `done` lists the descriptions with `initialized` set, the one set last first; setting it
comes right after the hooks, so the list says for which the hooks ran, and how often. -/
def init (g : Nat → List Field) : (depth : Nat) → Nat → List Nat → Option (List Nat)
  | 0, _, _ => none
  | depth + 1, v, done => if v ∈ done then some done else calls (init g depth) (targets v (g v)) (v :: done)

/-- mappings.tmpl:62-67: the `init` functions of the generated packages call `Init` for their structs. -/
def initAll (g : Nat → List Field) (depth : Nat) (vs : List Nat) (done : List Nat) : Option (List Nat) :=
  calls (init g depth) vs done

/-- field.go:66-75 `IsValidMapKeyType` -/
def validKey (t : Nat) : Bool := t ∈ [1, 12, 2, 3, 4, 5, 6, 7, 8, 9, 10, 11]

/-- mapping.go:95-121 `FieldDescr.Validate`; `run` is `validate` of the description pointed at. -/
def checkField (run : Nat → Option Bool) (f : Field) : Option Bool :=
  if f.ty = 54 ∨ f.ty = 14 then
    match f.mapping with
    | none => some false
    | some m => run m
  else if f.ty = 55 then
    if !f.isMap then some false
    else if !validKey f.keyTy then some false
    else match f.valMapping with
      | some m => run m
      | none => some (f.valTy ≠ 14)
  else some true

/-- mapping.go:179-184, the loop -/
def checkFields (run : Nat → Option Bool) : List Field → Option Bool
  | [] => some true
  | f :: fs =>
    match checkField run f with
    | some true => checkFields run fs
    | r => r

/-- mapping.go:179-186 `validate`; `MustValidate` (197-201) panics if the answer is an error. -/
def check (g : Nat → List Field) : (depth : Nat) → Nat → Option Bool
  | 0, _ => none
  | depth + 1, v => checkFields (check g depth) (g v)

end Claw.Prepare
