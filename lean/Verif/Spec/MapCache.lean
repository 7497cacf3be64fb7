import Verif.Model.MapCache
import Verif.Spec.Maps
import Verif.Spec.ListCache

/-!
# Specification of map editing

A record that `Marshal` would write, and for each map field that has been touched its entries in order and whether
the map is still connected (`live`) to the record. No search, flags or bytes.
-/

namespace Claw

open Classical

/-- The effect of a call on the entries: `Set` replaces the value of the key or inserts before the greater keys. -/
noncomputable def MOp.onEntries {V : Type} (t : KTy) : MOp t.Val V → List (t.Val × V) → List (t.Val × V)
  | .set k v, es =>
    if ∃ e ∈ es, t.Same e.1 k then es.map fun e => if t.Same e.1 k then (e.1, v) else e
    else es.filter (fun e => t.Before e.1 k) ++ (k, v) :: es.filter fun e => ¬ t.Before e.1 k
  | .delete k, es => es.filter fun e => ¬ t.Same e.1 k
  | .clear, _ => []

/-- The type of a map field. -/
abbrev MapSchema.ty (σ : MapSchema) (fn : Nat) : STy := .map (σ fn).1 (σ fn).2

abbrev MapSchema.Entries (σ : MapSchema) (fn : Nat) : Type := List ((σ fn).1.Val × (σ fn).2.Val)

/-- Keys in order. -/
def Ascending {V : Type} (t : KTy) (es : List (t.Val × V)) : Prop := es.Pairwise fun a b => t.Before a.1 b.1

/-- A map a client has touched; `own` if its values are not parts of a message. -/
structure MShown (σ : MapSchema) (fn : Nat) where
  live : Bool
  own : Bool
  entries : σ.Entries fn

structure MAbs (σ : MapSchema) where
  fields : List Val
  shown : (fn : Nat) → Option (MShown σ fn)

namespace MAbs
variable {σ : MapSchema}

def start (σ : MapSchema) (r : List Val) : MAbs σ := ⟨r, fun _ => none⟩

/-- Touch a map: if it is not in the record the new map is live, otherwise it is a detached copy. -/
def touch (A : MAbs σ) (fn : Nat) : MShown σ fn :=
  match A.shown fn with
  | some s => s
  | none =>
    let x := A.fields.getD fn .absent
    ⟨x.isAbsent, x.isAbsent, listIn (σ.ty fn) x⟩

def setShown (A : MAbs σ) (fn : Nat) (s : MShown σ fn) : MAbs σ := { A with shown := dput A.shown fn (some s) }

/-- The record when the live maps selected by `p` have been written. -/
def flushed (A : MAbs σ) (p : Nat → Bool) : List Val :=
  A.fields.mapIdx fun i x =>
    match A.shown i with
    | some s => if s.live && p i then specScalar (σ.ty i) s.entries else x
    | none => x

/-- The record `Marshal` encodes: all live maps are written. -/
def encoded (A : MAbs σ) : List Val := A.flushed fun _ => true

/-- The effect of a call. After `Marshal` no map is live. -/
noncomputable def step (A : MAbs σ) : MCall σ → MAbs σ
  | .call op => { A with fields := op.spec A.fields }
  | .read fn => A.setShown fn (A.touch fn)
  | .edit fn op => A.setShown fn { A.touch fn with entries := op.onEntries _ (A.touch fn).entries }
  | .poke fn k v => A.setShown fn { A.touch fn with
      entries := (A.touch fn).entries.map fun e => if (σ fn).1.Same e.1 k then (e.1, v) else e }
  | .marshal => ⟨A.encoded, fun i => (A.shown i).map fun s => { s with live := false }⟩

noncomputable def steps (A : MAbs σ) : List (MCall σ) → MAbs σ
  | [] => A
  | c :: cs => (A.step c).steps cs

end MAbs

/-- The call is within the schema; `isM` says which fields are maps. When the message is written it stays below 4 GiB
and the padding of the maps that are written is not read as entries (C14). -/
def MCall.Fits {σ : MapSchema} (isM : Nat → Bool) (A : MAbs σ) : MCall σ → Prop
  | .call op => op.Fits A.fields.length ∧ (∀ fn, op.field = some fn → isM fn = false) ∧
      8 + sizes (op.spec A.fields) < 2 ^ 32
  | .read fn => fn < A.fields.length ∧ isM fn = true
  | .edit fn _ => fn < A.fields.length ∧ isM fn = true
  | .poke fn _ _ => fn < A.fields.length ∧ isM fn = true ∧ (A.touch fn).own = true
  | .marshal => (∀ p, 8 + sizes (A.flushed p) < 2 ^ 32) ∧
      ∀ fn s, A.shown fn = some s → s.live = true → (σ.ty fn).Clean s.entries

def MFits {σ : MapSchema} (isM : Nat → Bool) : MAbs σ → List (MCall σ) → Prop
  | _, [] => True
  | A, c :: cs => c.Fits isM A ∧ MFits isM (A.step c) cs

/-- The map fields of a record have the types of the schema and their keys are in order. -/
def MapsTyped (σ : MapSchema) (isM : Nat → Bool) (r : List Val) : Prop :=
  ∀ fn, isM fn = true → r.getD fn .absent = .absent ∨
    ∃ es, r.getD fn .absent = .scalar (σ.ty fn) es ∧ Ascending (σ fn).1 es

/-- The call reads or changes a map, or the structs in it, that is not live. -/
def MCall.Detached {σ : MapSchema} (A : MAbs σ) : MCall σ → Prop
  | .read fn => (A.touch fn).live = false
  | .edit fn _ => (A.touch fn).live = false
  | .poke fn _ _ => (A.touch fn).live = false
  | _ => False

def AllDetached {σ : MapSchema} : MAbs σ → List (MCall σ) → Prop
  | _, [] => True
  | A, c :: cs => c.Detached A ∧ AllDetached (A.step c) cs

/-- The call is on map field `fn`. -/
def MCall.Names {σ : MapSchema} (fn : Nat) : MCall σ → Prop
  | .read i => i = fn
  | .edit i _ => i = fn
  | .poke i _ _ => i = fn
  | _ => False

/-- The effect of a call on the map of field `fn` as a mathematical map. -/
noncomputable def MCall.onMap {σ : MapSchema} (fn : Nat) :
    MCall σ → ((σ fn).1.Val → Option (σ fn).2.Val) → (σ fn).1.Val → Option (σ fn).2.Val
  | .edit i op, f => if h : i = fn then MOp.spec (σ fn).1 (h ▸ op) f else f
  | .poke i k v, f => if h : i = fn then fun k' => if (σ fn).1.Same (h ▸ k) k' then (f k').map fun _ => h ▸ v else f k'
    else f
  | _, f => f

noncomputable def onMaps {σ : MapSchema} (fn : Nat) :
    List (MCall σ) → ((σ fn).1.Val → Option (σ fn).2.Val) → (σ fn).1.Val → Option (σ fn).2.Val
  | [], f => f
  | c :: cs, f => onMaps fn cs (c.onMap fn f)

/-- Entries in order that stand for a mathematical map. -/
def MapIs {V : Type} (t : KTy) (es : List (t.Val × V)) (f : t.Val → Option V) : Prop :=
  Ascending t es ∧ ∀ k v, f k = some v ↔ ∃ e ∈ es, t.Same e.1 k ∧ e.2 = v

end Claw
