import Verif.Model.Api

/-!
# When a map is written: the cache of map objects

Models the caching part of `/repo/clawc/languages/go/segment/maps.go`: the accessor of a map field returns an
object kept in `Struct.lists`; edits change the object only; `Marshal` writes the objects registered in
`Struct.dirtyLists`. The schema `σ` gives the types of every map field, so one accessor type is used per field (the
type assertions of maps.go:971-973, 1001-1003 succeed). Simplified: the generated code has no way to drop a map
object from the cache, so an object is named by its field; recording is off; a value that is a struct is its bytes
(its own lists are not pending), one struct is not stored twice, and `poke` is the change of it through its own
setters.
-/

namespace Claw

/-- The key and value types of the map fields. -/
abbrev MapSchema := Nat → KTy × VTy

/-- The object of field `fn`. -/
abbrev MapSchema.Obj (σ : MapSchema) (fn : Nat) : Type := GoMap (σ fn).1.Val (σ fn).2.Val

/-- Store at one place of a table. -/
def dput {F : Nat → Type} (f : (i : Nat) → F i) (n : Nat) (v : F n) : (i : Nat) → F i :=
  fun i => if h : i = n then h ▸ v else f i

/-- struct.go:21-52: a struct with its map objects; `pending` are the fields in `dirtyLists`. -/
structure MSt (σ : MapSchema) where
  st : St
  maps : (fn : Nat) → Option (σ.Obj fn)
  pending : List Nat

def MSt.ofSt (σ : MapSchema) (s : St) : MSt σ := ⟨s, fun _ => none, []⟩

namespace MSt
variable {σ : MapSchema}

/-- struct.tmpl:565-572, 590-597, 608-615, 667-674, 758-766 `XMap()`: the cached object (maps.go:970-974); else an
object with the entries of the segment, cached but not registered (maps.go:981-994, 1011-1025, 1049-1062,
1082-1096); else a new one, cached and registered (maps.go:52-65). -/
def access (L : MSt σ) (fn : Nat) : Res (σ.Obj fn × MSt σ) :=
  match L.maps fn with
  | some m => .ok (m, L)
  | none => do
    let st ← L.st.ensure
    match ← getMap (σ fn).1 (σ fn).2 st fn with
    | some m => return (m, { L with st := st, maps := dput L.maps fn (some m) })
    | none => return (GoMap.new, ⟨st, dput L.maps fn (some GoMap.new), L.pending ++ [fn]⟩)

/-- struct.tmpl `XSet`, `XDelete` and the methods of the object: maps.go:83-123, 156-170. -/
def edit (L : MSt σ) (fn : Nat) (op : MOp (σ fn).1.Val (σ fn).2.Val) : Res (MSt σ) := do
  let (m, L) ← L.access fn
  let m ← op.run (σ fn).1.compare m
  return { L with maps := dput L.maps fn (some m) }

/-- struct.tmpl `XGet`: maps.go:73-80. -/
def get (L : MSt σ) (fn : Nat) (k : (σ fn).1.Val) : Res (Option (σ fn).2.Val) := do
  let (m, _) ← L.access fn
  m.get (σ fn).1.compare k

/-- The struct stored for a key is changed through its own setters, after `Set` or obtained by `XGet`: the object
has a pointer to it (struct.tmpl:576-588), and is not told. -/
def poke (L : MSt σ) (fn : Nat) (k : (σ fn).1.Val) (v : (σ fn).2.Val) : Res (MSt σ) := do
  let (m, L) ← L.access fn
  match ← m.findKey (σ fn).1.compare k with
  | none => return L
  | some i => return { L with maps := dput L.maps fn (some { m with vals := m.vals.set i v }) }

/-- maps.go:251-283 `SyncToSegment` of a registered object. -/
def sync (L : MSt σ) (fn : Nat) : Res (MSt σ) :=
  match L.maps fn with
  | none => .panic
  | some m => do
    let (st, m) ← syncMap (σ fn).1 (σ fn).2 L.st fn m
    return { L with st := st, maps := dput L.maps fn (some m) }

/-- struct.go:304-310: the loop over the registered objects. -/
def syncAll : MSt σ → List Nat → Res (MSt σ)
  | L, [] => .ok L
  | L, fn :: rest => do
    let L ← L.sync fn
    syncAll L rest

/-- struct.go:387-406 `Marshal` with 304-312 `syncDirtyLists`. -/
def marshal (L : MSt σ) : Res (Bytes × MSt σ) := do
  let L ← L.syncAll L.pending
  let L := { L with pending := [] }
  let (b, st) ← L.st.marshal
  return (b, { L with st := st })

end MSt

/-- A call. `read` is any call that only reads a map: `XMap`, `XGet`, `XHas`, `XLen`. -/
inductive MCall (σ : MapSchema) where
  | call (op : Op)
  | read (fn : Nat)
  | edit (fn : Nat) (op : MOp (σ fn).1.Val (σ fn).2.Val)
  | poke (fn : Nat) (k : (σ fn).1.Val) (v : (σ fn).2.Val)
  | marshal

def MCall.run {σ : MapSchema} : MCall σ → MSt σ → Res (MSt σ)
  | .call op, L => do
    let st ← op.run L.st
    return { L with st := st }
  | .read fn, L => do
    let (_, L) ← L.access fn
    return L
  | .edit fn op, L => L.edit fn op
  | .poke fn k v, L => L.poke fn k v
  | .marshal, L => do
    let (_, L) ← L.marshal
    return L

/-- Run a program. -/
def runMCalls {σ : MapSchema} : List (MCall σ) → MSt σ → Res (MSt σ)
  | [], L => .ok L
  | c :: cs, L => do
    let L ← c.run L
    runMCalls cs L

end Claw
