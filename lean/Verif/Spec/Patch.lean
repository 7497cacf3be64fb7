import Verif.Model.Patch
import Verif.Spec.ListCache

/-!
# Specification of patches: how deep they are, what it means to apply one after the other, and when two
records are equal
-/

namespace Claw

/-- Types with a single value that a patch can set: numbers, bools, strings and byte slices. -/
def STy.plain : STy → Bool
  | .lbool | .lnum _ | .lstr | .lbytes | .any | .lany | .map _ _ => false
  | _ => true

/-- The operation carries a patch for a struct inside. -/
def POp.nests (op : POp) : Prop := op.ty = PStructPatch ∨ op.ty = PListStructPatch

/-- The operation has at least `n` patches inside each other. -/
inductive Deep : Nat → POp → Prop
  | one {op : POp} : op.nests → Deep 1 op
  | more {n : Nat} {op op' : POp} {ops : List (Res POp)} : op.nests → decodePatch op.data = .ok (some ops) →
      Res.ok op' ∈ ops → Deep n op' → Deep (n + 1) op

/-- All operations are applied one after the other without an error. -/
inductive AllApplied (f : LSt → POp → Res (LSt × Bool)) : LSt → List POp → LSt → Prop
  | nil {L : LSt} : AllApplied f L [] L
  | cons {L L1 L2 : LSt} {op : POp} {ops : List POp} : f L op = .ok (L1, false) → AllApplied f L1 ops L2 →
      AllApplied f L (op :: ops) L2

/-- Equality of numbers as Go's `==` has it, except that NaN is equal to NaN: the two zeros are equal. -/
def NTy.Eqv : (k : NTy) → k.Val → k.Val → Prop
  | .f32, x, y => x = y ∨ (F32.isNaN x = true ∧ F32.isNaN y = true) ∨ (F32.isZero x = true ∧ F32.isZero y = true)
  | .f64, x, y => x = y ∨ (F64.isNaN x = true ∧ F64.isNaN y = true) ∨ (F64.isZero x = true ∧ F64.isZero y = true)
  | _, x, y => x = y

/-- The same length, and equal items at every index. -/
def EqvLists {α : Type} (eqv : α → α → Prop) (xs ys : List α) : Prop :=
  xs.length = ys.length ∧ ∀ (i : Nat) (x y : α), xs[i]? = some x → ys[i]? = some y → eqv x y

/-- Equality of the values of one field. -/
def STy.Eqv : (t : STy) → t.Val → t.Val → Prop
  | .f32, x, y => NTy.Eqv .f32 x y
  | .f64, x, y => NTy.Eqv .f64 x y
  | .lnum k, x, y => EqvLists k.Eqv x y
  | _, x, y => x = y

/-- The items of a list of structs. -/
def itemsIn : Val → List (List Val)
  | .structs items => items
  | _ => []

mutual
/-- Two values of a field are equal. An unset field counts as zero, a list that is not there as empty; a
struct that is not there is different from one that is. -/
def Ty.Same : Ty → Val → Val → Prop
  | .scalar t, a, b => t.Eqv (listIn t a) (listIn t b)
  | .struct tys, .struct vs, .struct ws => SameFields tys vs ws
  | .struct _, .struct _, _ => False
  | .struct _, _, .struct _ => False
  | .struct _, _, _ => True
  | .structs tys, a, b => (itemsIn a).length = (itemsIn b).length ∧
      ∀ p ∈ (itemsIn a).zip (itemsIn b), SameFields tys p.1 p.2
/-- All fields are equal. -/
def SameFields : List Ty → List Val → List Val → Prop
  | [], _, _ => True
  | ty :: tys, vs, ws => ty.Same (vs.headD .absent) (ws.headD .absent) ∧ SameFields tys vs.tail ws.tail
end

mutual
/-- A pair of values of which `Diff` does not complain: fields of type Any and map are not supported, and a
list of byte slices that is not there makes it panic. -/
def Ty.Diffable : Ty → Val → Val → Prop
  | .scalar .any, _, _ | .scalar .lany, _, _ | .scalar (.map _ _), _, _ => False
  | .scalar .lbytes, a, b => a ≠ .absent ∧ b ≠ .absent
  | .scalar _, _, _ => True
  | .struct tys, .struct vs, .struct ws => DiffableFields tys vs ws
  | .struct _, _, _ => True
  | .structs tys, a, b => ∀ p ∈ (itemsIn a).zip (itemsIn b), DiffableFields tys p.1 p.2
def DiffableFields : List Ty → List Val → List Val → Prop
  | [], _, _ => True
  | ty :: tys, vs, ws => ty.Diffable (vs.headD .absent) (ws.headD .absent) ∧ DiffableFields tys vs.tail ws.tail
end

/-- The number of items of a list. -/
def STy.count : (t : STy) → t.Val → Nat
  | .lbool, v => v.length | .lnum _, v => v.length | .lstr, v => v.length | .lbytes, v => v.length
  | _, _ => 0

/-- A pair of values for which the patch does what it should: an index must fit into the index of an operation, and a
struct or list of structs that is there on both sides must not have to be changed. -/
def Ty.Patchable : Ty → Val → Val → Prop
  | .scalar t, a, b => t.count (listIn t a) < 2 ^ 31 ∧ t.count (listIn t b) < 2 ^ 31
  | .struct tys, a, b => a = .absent ∨ b = .absent ∨ (Ty.struct tys).Same a b
  | .structs tys, a, b => a = .absent ∨ b = .absent ∨ (Ty.structs tys).Same a b

/-- What the getters show: the items of the touched lists, otherwise the record. -/
def LAbs.current (A : LAbs) : List Val :=
  A.fields.mapIdx fun i x =>
    match A.shown i with
    | some sh => sh.items
    | none => x

/-- The list fields of a schema. -/
def listsOf (tys : List Ty) (i : Nat) : Option STy :=
  match tys[i]? with
  | some (.scalar t) => if t.isList = true then some t else none
  | _ => none

/-- An edit of a Go slice: `s[i] = x`, `slices.Insert(s, i, x)` and `slices.Delete(s, i, i+1)`; the item is
given by its bytes. -/
inductive LEdit
  | set (i : Int) (d : Bytes)
  | ins (i : Int) (d : Bytes)
  | rem (i : Int)

/-- The result of an edit, `none` if the index is out of range or the bytes are no item. -/
def LEdit.slice {α : Type} (item : Bytes → Option α) : LEdit → List α → Option (List α)
  | .set i d, v => if 0 ≤ i ∧ i < v.length then (item d).map (v.set i.toNat) else none
  | .ins i d, v => if 0 ≤ i ∧ i ≤ v.length then (item d).map (v.insertIdx i.toNat) else none
  | .rem i, v => if 0 ≤ i ∧ i < v.length then some (v.eraseIdx i.toNat) else none

/-- The edit on a list of bools, numbers, strings or byte slices. A bool is a byte that is not zero, a number its
little endian bytes; more bytes than needed are ignored. -/
def LEdit.on : (t : STy) → LEdit → t.Val → Option t.Val
  | .lbool, e, v => e.slice (fun d => d.head?.map (· != 0)) v
  | .lstr, e, v => e.slice some v
  | .lbytes, e, v => e.slice some v
  | .lnum k, e, v => e.slice (fun d => if k.size ≤ d.length then some (k.ofBits (getLE (d.take k.size))) else none) v
  | _, _, _ => none

/-- The types `LEdit.on` is about. -/
def STy.editable : STy → Bool
  | .lbool | .lstr | .lbytes | .lnum _ => true
  | _ => false

/-- The list edit an operation of a patch stands for. -/
def POp.edit (op : POp) : Option LEdit :=
  if op.ty = PListSet then some (.set op.index.toInt op.data)
  else if op.ty = PListInsert then some (.ins op.index.toInt op.data)
  else if op.ty = PListRemove then some (.rem op.index.toInt)
  else none

/-- A patch of list edits as slice edits: one after the other until the first error. The result is what the fields
show afterwards, and whether there was an error. -/
def sliceEdits (tys : List Ty) : (Nat → Val) → List POp → (Nat → Val) × Bool
  | cur, [] => (cur, false)
  | cur, op :: ops =>
    match tys[op.fn.toNat]?, op.edit with
    | some (.scalar t), some e =>
      match e.on t (listIn t (cur op.fn.toNat)) with
      | some w => sliceEdits tys (fun i => if i = op.fn.toNat then .scalar t w else cur i) ops
      | none => (cur, true)
    | _, _ => (cur, true)

/-- The operations are list edits of fields that are lists of bools, numbers, strings or byte slices. -/
def OnlyEdits (tys : List Ty) (ops : List POp) : Prop :=
  ∀ op ∈ ops, (∃ e, op.edit = some e) ∧ ∃ t, tys[op.fn.toNat]? = some (.scalar t) ∧ t.editable = true

/-- The record with the number lists `cur` shows: number lists are written at once, the others when the struct is
marshalled. -/
def numbersOf (tys : List Ty) (base : List Val) (cur : Nat → Val) : List Val :=
  base.mapIdx fun i x =>
    match tys[i]? with
    | some (.scalar (.lnum k)) => specScalar (.lnum k) (listIn (.lnum k) (cur i))
    | _ => x

/-- The lists of numbers a client has touched are all written: since the last edit the struct was marshalled. -/
def NumbersSettled (A : LAbs) : Prop :=
  ∀ fn sh k v, A.shown fn = some sh → sh.items = .scalar (.lnum k) v →
    sh.live = false ∧ A.fields.getD fn .absent = specScalar (.lnum k) v

end Claw
