import Verif.Model.Api

/-!
# When a list is written: the cache of list objects

Models the caching part of `/repo/clawc/languages/go/segment/{struct,lists,getters}.go`: a list
accessor returns an object kept in `Struct.lists`; edits change the object only; `Marshal` writes the
objects registered in `Struct.dirtyLists` into the segment. Kinds: bools, numbers, strings, bytes
(a list of numbers is kept here as its items, not as their bytes; `C10_list_is_slice` says that is the
same). Simplified: edits go through the accessor (`x.L().Append(…)`), so an object that was dropped
from the cache by `ClearField` is not edited any more; recording is off; one accessor type per field,
so that the type-mismatch path of `GetListNumbers` (getters.go:64-72) is not taken.
-/

namespace Claw

/-- lists.go:16-21, 188-195, 607-612, 794-799: a list object. -/
structure LObj where
  fn : Nat
  t : STy
  v : t.Val
  dirty : Bool

/-- struct.go:21-52: a struct with its list cache. `lists` maps field numbers to objects (numbers in
`heap`); `dirtyLists` are the registered ones with their field numbers. -/
structure LSt where
  st : St
  heap : List LObj
  lists : Nat → Option Nat
  dirtyLists : List (Nat × Nat)

/-- A struct without list objects. -/
def LSt.ofSt (s : St) : LSt := ⟨s, [], fun _ => none, []⟩

/-- lists.go:150-183, 545-575, 749-791, 942-986 behind the dirty check: write or remove the field. -/
def syncList (s : St) (fn : Nat) (isEmpty : Bool) (blob : Option Bytes) : Res St :=
  if isEmpty then s.removeField fn
  else do
    let b ← Res.ofOption blob
    s.insertField fn b

/-- `SyncToSegment` by kind. -/
def STy.sync : (t : STy) → St → Nat → t.Val → Res St
  | .lbool, s, fn, v => syncList s fn (v.length == 0) (boolsBlob fn v)
  | .lnum k, s, fn, v => syncList s fn ((Nums.setAll k v).len == 0) ((Nums.setAll k v).blob k fn)
  | .lstr, s, fn, v => syncList s fn (v.length == 0) (itemsBlob fn FTListStrings v)
  | .lbytes, s, fn, v => syncList s fn (v.length == 0) (itemsBlob fn FTListBytes v)
  | _, s, _, _ => .ok s

/-- The items in the segment, `none` when the field is not there: the part of `GetListBools`,
`GetListNumbers`, `GetListStrings` and `GetListBytes` behind the cache lookup. -/
def STy.getList : (t : STy) → St → Nat → Res (Option t.Val)
  | .lbool, s, n => getListBools s n
  | .lnum k, s, n => do
    match ← getListNums k s n with
    | none => return none
    | some l =>
      let v ← l.slice k
      return some v
  | .lstr, s, n => getListItems s n
  | .lbytes, s, n => getListItems s n
  | _, _, _ => .ok none

namespace LSt

/-- struct.go:272-276 `RegisterDirtyList` and 287-292 `SetList`. -/
def register (L : LSt) (fn id : Nat) : LSt :=
  { L with
    dirtyLists := L.dirtyLists ++ [(fn, id)]
    lists := fun i => if i = fn then some id else L.lists i }

/-- struct.tmpl:369-490 accessor `X()`: the cached object (getters.go:17-19); else an object with the
items of the segment, cached but not registered (getters.go:46-53, 117-138, 176-183, 223-230); else a
new empty object, cached and registered (lists.go:24-32, 226-229, 616-624, 803-811). -/
def access (L : LSt) (fn : Nat) (t : STy) : Res (Nat × LSt) :=
  match L.lists fn with
  | some id => .ok (id, L)
  | none => do
    let st ← L.st.ensure
    match ← t.getList st fn with
    | some v =>
      return (L.heap.length, { L with
        st := st
        heap := L.heap ++ [LObj.mk fn t v false]
        lists := fun i => if i = fn then some L.heap.length else L.lists i })
    | none =>
      let L := { L with st := st, heap := L.heap ++ [LObj.mk fn t t.zero false] }
      return (L.heap.length - 1, L.register fn (L.heap.length - 1))

/-- The items an accessor shows; a failed type assertion panics. -/
def shows (L : LSt) (fn : Nat) (t : STy) : Res t.Val := do
  let (id, L) ← L.access fn t
  match L.heap[id]? with
  | none => .panic
  | some o => if h : o.t = t then return h ▸ o.v else .panic

/-- An edit of the list: `Append`, `Set`, `SetAll` change the items as `g` does and set the dirty flag
(lists.go:40-112, 297-505, 627-690, 814-887); `none` is an index panic. -/
def edit (L : LSt) (fn : Nat) (t : STy) (g : t.Val → Option t.Val) : Res LSt := do
  let (id, L) ← L.access fn t
  match L.heap[id]? with
  | none => .panic
  | some o =>
    if h : o.t = t then
      match g (h ▸ o.v) with
      | none => .panic
      | some v => return { L with heap := L.heap.set id (LObj.mk o.fn t v true) }
    else .panic

/-- `SyncToSegment` of one object: nothing unless dirty. -/
def syncObj (L : LSt) (id : Nat) : Res LSt :=
  match L.heap[id]? with
  | none => .panic
  | some o =>
    if o.dirty then do
      let st ← o.t.sync L.st o.fn o.v
      return { L with st := st, heap := L.heap.set id { o with dirty := false } }
    else .ok L

/-- struct.go:304-310: the loop over the registered objects. -/
def syncAll : LSt → List (Nat × Nat) → Res LSt
  | L, [] => .ok L
  | L, (_, id) :: rest => do
    let L ← L.syncObj id
    syncAll L rest

/-- struct.go:387-406 `Marshal` with 304-312 `syncDirtyLists`. -/
def marshal (L : LSt) : Res (Bytes × LSt) := do
  let L ← L.syncAll L.dirtyLists
  let L := { L with dirtyLists := [] }
  let (b, st) ← L.st.marshal
  return (b, { L with st := st })

/-- getters.go:253-258 `ClearField` with struct.go:297-301 and 333-341. -/
def clear (L : LSt) (fn : Nat) : Res LSt := do
  let st ← L.st.removeField fn
  return { L with
    st := st
    lists := fun i => if i = fn then none else L.lists i
    dirtyLists := L.dirtyLists.filter fun p => p.1 ≠ fn }

end LSt

/-- One call of a client. `call`: an operation on a field that is not a list (or a struct list). -/
inductive LOp where
  | call (op : Op)
  | access (fn : Nat) (t : STy)
  | edit (fn : Nat) (t : STy) (g : t.Val → Option t.Val)
  | clear (fn : Nat)
  | marshal

/-- Run one call. -/
def LOp.run : LOp → LSt → Res LSt
  | .call op, L => do
    let st ← op.run L.st
    return { L with st := st }
  | .access fn t, L => do
    let (_, L) ← L.access fn t
    return L
  | .edit fn t g, L => L.edit fn t g
  | .clear fn, L => L.clear fn
  | .marshal, L => do
    let (_, L) ← L.marshal
    return L

/-- Run a program. -/
def runLOps : List LOp → LSt → Res LSt
  | [], L => .ok L
  | op :: ops, L => do
    let L ← op.run L
    runLOps ops L

end Claw
