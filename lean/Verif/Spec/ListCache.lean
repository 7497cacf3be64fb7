import Verif.Model.ListCache
import Verif.Spec.Record

/-!
# Specification of list editing

What a client can rely on, without objects, flags or bytes: a record that `Marshal` would write, and
for each list that has been touched its items as shown and whether it is still connected (`live`) to
the record.
-/

namespace Claw

/-- A list a client has touched. -/
structure Shown where
  live : Bool
  items : Val

/-- Record and touched lists. -/
structure LAbs where
  fields : List Val
  shown : Nat → Option Shown

/-- The items of a value of list type `t`. -/
def listIn (t : STy) : Val → t.Val
  | .scalar t' v => if h : t' = t then h ▸ v else t.zero
  | _ => t.zero

/-- The value stored for shown items: an empty list is not stored. -/
def stored : Val → Val
  | .scalar t v => specScalar t v
  | v => v

namespace LAbs

/-- Touch a list: if it is not in the record the new list is live, otherwise it is a detached copy. -/
def touch (A : LAbs) (fn : Nat) (t : STy) : Shown :=
  match A.shown fn with
  | some s => s
  | none => ⟨(A.fields.getD fn .absent).isAbsent, .scalar t (listIn t (A.fields.getD fn .absent))⟩

def setShown (A : LAbs) (fn : Nat) (s : Option Shown) : LAbs :=
  { A with shown := fun i => if i = fn then s else A.shown i }

/-- The record when the live lists selected by `p` have been written. -/
def flushed (A : LAbs) (p : Nat → Bool) : List Val :=
  A.fields.mapIdx fun i x =>
    match A.shown i with
    | some ⟨true, v⟩ => if p i then stored v else x
    | _ => x

/-- The record `Marshal` encodes: all live lists are written. -/
def encoded (A : LAbs) : List Val := A.flushed fun _ => true

/-- The effect of a call. After `Marshal` no list is live. -/
def step (A : LAbs) : LOp → LAbs
  | .call op => { A with fields := op.spec A.fields }
  | .access fn t => A.setShown fn (some (A.touch fn t))
  | .edit fn t g =>
    match g (listIn t (A.touch fn t).items) with
    | some v => A.setShown fn (some ⟨(A.touch fn t).live, .scalar t v⟩)
    | none => A
  | .clear fn => { A.setShown fn none with fields := A.fields.set fn .absent }
  | .marshal => ⟨A.encoded, fun i => (A.shown i).map fun s => { s with live := false }⟩

def steps (A : LAbs) : List LOp → LAbs
  | [] => A
  | op :: ops => (A.step op).steps ops

end LAbs

/-- The field an operation writes. -/
def Op.field : Op → Option Nat
  | .set fn _ _ | .clear fn | .nest fn _ _ | .nestNil fn | .nestList fn _ _ => some fn
  | .peek => none

/-- The call is within the schema: `lists` gives the list fields and their types. Shown string lists
are clean (C11), the edit does not panic, and the message stays below 4 GiB while it is written. -/
def LOp.Fits (lists : Nat → Option STy) (A : LAbs) : LOp → Prop
  | .call op => op.Fits A.fields.length ∧ (∀ fn, op.field = some fn → lists fn = none) ∧
      8 + sizes (op.spec A.fields) < 2 ^ 32
  | .access fn t => fn < A.fields.length ∧ lists fn = some t ∧ t.isList = true
  | .edit fn t g => fn < A.fields.length ∧ lists fn = some t ∧ t.isList = true ∧
      ∃ v, g (listIn t (A.touch fn t).items) = some v ∧ t.Clean v
  | .clear fn => fn < A.fields.length
  | .marshal => ∀ p, 8 + sizes (A.flushed p) < 2 ^ 32

def LFits (lists : Nat → Option STy) : LAbs → List LOp → Prop
  | _, [] => True
  | A, op :: ops => op.Fits lists A ∧ LFits lists (A.step op) ops

/-- No edit of a list that is not live. -/
def Connected : LAbs → List LOp → Prop
  | _, [] => True
  | A, op :: ops =>
    (match op with
      | .edit fn t _ => (A.touch fn t).live = true
      | _ => True) ∧ Connected (A.step op) ops

end Claw
