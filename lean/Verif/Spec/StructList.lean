import Verif.Model.StructList
import Verif.Spec.ListCache

/-!
# Specification of lists of structs

Without objects, flags or bytes: the record that `Marshal` would write, the records of the structs the program has
made, and for each list that was touched its items and whether it is still connected (`live`) to the record.
-/

namespace Claw

structure SShown where
  live : Bool
  items : List Nat

structure SAbs where
  fields : List Val
  recs : List (List Val)
  shown : Nat → Option SShown

namespace SAbs

/-- The record of struct `i`. -/
def record (A : SAbs) (i : Nat) : List Val := A.recs.getD i []

/-- The value of a list with these items, as they are now. -/
def now (A : SAbs) (items : List Nat) : Val := specStructs (items.map A.record)

/-- A list that was not touched before is empty and live: the fields of lists are absent at the start. -/
def touch (A : SAbs) (fn : Nat) : SShown := (A.shown fn).getD ⟨true, []⟩

def setShown (A : SAbs) (fn : Nat) (s : Option SShown) : SAbs :=
  { A with shown := fun i => if i = fn then s else A.shown i }

/-- The record when the live lists selected by `p` have been written. -/
def flushed (A : SAbs) (p : Nat → Bool) : List Val :=
  A.fields.mapIdx fun i x =>
    match A.shown i with
    | some ⟨true, items⟩ => if p i then A.now items else x
    | _ => x

/-- The record `Marshal` encodes. -/
def encoded (A : SAbs) : List Val := A.flushed fun _ => true

/-- The record as the program sees it: every list that was touched has its items as they are now. -/
def current (A : SAbs) : List Val :=
  A.fields.mapIdx fun i x =>
    match A.shown i with
    | some s => A.now s.items
    | none => x

/-- The effect of a call. After `Marshal` no list is live. -/
def step (A : SAbs) : SOp → SAbs
  | .call op => { A with fields := op.spec A.fields }
  | .make m => { A with recs := A.recs ++ [List.replicate m .absent] }
  | .item i op => { A with recs := A.recs.set i (op.spec (A.record i)) }
  | .touch fn _ => A.setShown fn (some (A.touch fn))
  | .append fn _ ids => A.setShown fn (some ⟨(A.touch fn).live, (A.touch fn).items ++ ids⟩)
  | .put fn _ j id => A.setShown fn (some ⟨(A.touch fn).live, (A.touch fn).items.set j id⟩)
  | .setAll fn _ ids => A.setShown fn (some ⟨(A.touch fn).live, ids⟩)
  | .clear fn => { A.setShown fn none with fields := A.fields.set fn .absent }
  | .marshal => ⟨A.encoded, A.recs, fun i => (A.shown i).map fun s => { s with live := false }⟩

def steps (A : SAbs) : List SOp → SAbs
  | [] => A
  | op :: ops => (A.step op).steps ops

end SAbs

/-- The call is within the schema: `L fn` tells that field `fn` is a list of structs. Items exist, indexes are in
range, and messages stay below 4 GiB while they are written. -/
def SOp.Fits (L : Nat → Bool) (A : SAbs) : SOp → Prop
  | .call op => op.Fits A.fields.length ∧ (∀ fn, op.field = some fn → L fn = false) ∧
      8 + sizes (op.spec A.fields) < 2 ^ 32
  | .make m => m ≤ 65536
  | .item i op => i < A.recs.length ∧ op.Fits (A.record i).length ∧ 8 + sizes (op.spec (A.record i)) < 2 ^ 32
  | .touch fn _ => fn < A.fields.length ∧ L fn = true
  | .append fn _ ids => fn < A.fields.length ∧ L fn = true ∧ ∀ i ∈ ids, i < A.recs.length
  | .put fn _ j id => fn < A.fields.length ∧ L fn = true ∧ id < A.recs.length ∧ j < (A.touch fn).items.length
  | .setAll fn _ ids => fn < A.fields.length ∧ L fn = true ∧ ∀ i ∈ ids, i < A.recs.length
  | .clear fn => fn < A.fields.length
  | .marshal => ∀ p, 8 + sizes (A.flushed p) < 2 ^ 32

def SFits (L : Nat → Bool) : SAbs → List SOp → Prop
  | _, [] => True
  | A, op :: ops => op.Fits L A ∧ SFits L (A.step op) ops

/-- Calls that only edit structs and the lists `was` tells. -/
def SOp.Edits (was : Nat → Bool) : SOp → Prop
  | .make _ | .item _ _ => True
  | .touch fn _ | .append fn _ _ | .put fn _ _ _ | .setAll fn _ _ => was fn = true
  | _ => False

/-- A call on the list `fn` that has the items `olds`, and the items it has then. -/
inductive SAbs.Replaces (A : SAbs) (fn : Nat) (olds : List (List Val)) : SOp → List (List Val) → Prop
  | append (k : Nat) (ids : List Nat) : (∀ i ∈ ids, i < A.recs.length) →
      Replaces A fn olds (.append fn k ids) (olds ++ ids.map A.record)
  | put (k j id : Nat) : j < olds.length → id < A.recs.length →
      Replaces A fn olds (.put fn k j id) (olds.set j (A.record id))
  | setAll (k : Nat) (ids : List Nat) : (∀ i ∈ ids, i < A.recs.length) →
      Replaces A fn olds (.setAll fn k ids) (ids.map A.record)

/-- A record nobody has touched yet, without structs. -/
def SAbs.start (r : List Val) : SAbs := ⟨r, [], fun _ => none⟩

end Claw
