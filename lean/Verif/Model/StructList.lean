import Verif.Model.ListCache
import Verif.Model.Alias

/-!
# Lists of structs: objects, items and where they live

Models `(*Structs)` of `/repo/clawc/languages/go/segment/lists.go:988-1238` with the cache of
`struct.go:272-312`: a list of structs is kept as pointers to its items, and `Marshal` copies the items into the
segment. The items a program makes have arrays of their own; the items of a decoded list are views of the array
of the parent (lists.go:1041-1047). Simplified: recording and IsSet tracking are off; the items have no pending
lists of their own (lists.go:1202-1206); a list object is named by its field, since `ClearField` drops the object
and its entry in `dirtyLists` together, and is not edited after that; when the parent moves to another array the
views it leaves behind are taken to be separate, although they still share the old one.
-/

namespace Claw

/-- lists.go:989-996: a list; the items are numbers in `pool`. -/
structure SList where
  items : List Nat
  dirty : Bool

/-- A struct with its lists of structs, and all the structs of the program that are or may become items. The
second component is the place in the parent's array of a view. -/
structure SSt where
  st : St
  pool : List (St × Option Nat)
  lists : Nat → Option SList
  pending : List Nat

def SSt.ofSt (s : St) : SSt := ⟨s, [], fun _ => none, []⟩

namespace SSt

/-- What the views show of the memory of the parent. -/
def look (p : St) : St × Option Nat → St × Option Nat
  | (c, none) => (c, none)
  | (c, some off) =>
    let mem := (p.seg.data ++ p.seg.spare).drop off
    ({ c with seg := ⟨mem.take c.seg.data.length, mem.drop c.seg.data.length⟩ }, some off)

/-- The parent was changed from `L.st` to `p`. Unless it moved (segment.go:181-190), its views show the change. -/
def parent (L : SSt) (p : St) : SSt :=
  if p.seg.cap = L.st.seg.cap then { L with st := p, pool := L.pool.map (look p) }
  else { L with st := p, pool := L.pool.map fun c => (c.1, none) }

/-- Item `i` was changed from `c` to `c'`; a view that has not moved writes to the memory of the parent. -/
def item (L : SSt) (i : Nat) (c : St × Option Nat) (c' : St) : SSt :=
  match c.2 with
  | none => { L with pool := L.pool.set i (c', none) }
  | some off =>
    if c'.seg.cap = c.1.seg.cap then
      let p := L.st.overwrite off (c'.seg.data ++ c'.seg.spare)
      { L with st := p, pool := (L.pool.set i (c', some off)).map (look p) }
    else { L with pool := L.pool.set i (c', none) }

/-- The places of the items of a list that begins at `off` of the array. -/
def places : Nat → List St → List (St × Option Nat)
  | _, [] => []
  | off, c :: cs => (c, some off) :: places (off + c.seg.data.length) cs

/-- struct.tmpl:496-513 `XList()`: the cached list; else `NewStructs` (lists.go:1000-1017, getters.go:236-249),
which takes what is in the segment and registers the list, not dirty. `m` is the length of the items' schema. -/
def access (L : SSt) (fn m : Nat) : Res (SList × SSt) :=
  match L.lists fn with
  | some o => .ok (o, L)
  | none => do
    let ((offset, _), st) ← L.st.fieldOffset fn
    let items ← getListStructs st fn m
    let items := items.getD []
    let o : SList := ⟨(List.range items.length).map (· + L.pool.length), false⟩
    return (o, { L with
      st := st
      pool := L.pool ++ places (offset + HeaderSize) items
      lists := fun i => if i = fn then some o else L.lists i
      pending := L.pending ++ [fn] })

/-- lists.go:1060-1127 `Append`, `Set`, `SetAll`: `g` gives the items; `none` is an index panic. -/
def edit (L : SSt) (fn m : Nat) (g : List Nat → Option (List Nat)) : Res SSt := do
  let (o, L) ← L.access fn m
  match g o.items with
  | none => .panic
  | some items => return { L with lists := fun i => if i = fn then some ⟨items, true⟩ else L.lists i }

/-- lists.go:1224-1232: each item gets its index as field number, and is copied. -/
def copies : SSt → Nat → List Nat → Res (List Bytes × SSt)
  | L, _, [] => .ok ([], L)
  | L, j, i :: is =>
    match L.pool[i]? with
    | none => .panic
    | some c => do
      let d := encodeHeaderFieldNum c.1.seg.data (j % 65536)
      let L := L.item i c { c.1 with seg := ⟨d, c.1.seg.spare⟩ }
      let (ds, L) ← copies L (j + 1) is
      return (d :: ds, L)

/-- lists.go:1190-1238 `SyncToSegment`. -/
def sync (L : SSt) (fn : Nat) : Res SSt :=
  match L.lists fn with
  | none => .panic
  | some o =>
    if o.dirty then do
      let (ds, L) ← L.copies 0 o.items
      let p ← syncList L.st fn (o.items.length == 0) (structsBlob fn ds)
      let L := L.parent p
      return { L with lists := fun i => if i = fn then some ⟨o.items, false⟩ else L.lists i }
    else .ok L

/-- struct.go:304-312 `syncDirtyLists`: the loop. -/
def syncAll : SSt → List Nat → Res SSt
  | L, [] => .ok L
  | L, fn :: rest => do
    let L ← L.sync fn
    syncAll L rest

/-- struct.go:387-406 `Marshal`. -/
def marshal (L : SSt) : Res (Bytes × SSt) := do
  let L ← L.syncAll L.pending
  let L := { L with pending := [] }
  let (b, p) ← L.st.marshal
  return (b, L.parent p)

/-- getters.go:253-258 `ClearField`. -/
def clear (L : SSt) (fn : Nat) : Res SSt := do
  let p ← L.st.removeField fn
  let L := L.parent p
  return { L with
    lists := fun i => if i = fn then none else L.lists i
    pending := L.pending.filter (· ≠ fn) }

end SSt

/-- A call. `m` is the length of the schema of the items of list `fn`. -/
inductive SOp where
  | call (op : Op)
  | make (m : Nat)
  | item (i : Nat) (op : Op)
  | touch (fn m : Nat)
  | append (fn m : Nat) (ids : List Nat)
  | put (fn m j id : Nat)
  | setAll (fn m : Nat) (ids : List Nat)
  | clear (fn : Nat)
  | marshal

/-- Run one call: on the parent, `New` of a struct, a call on a struct that was made, `XList()`, the edits of a
list, `ClearField`, `Marshal`. -/
def SOp.run (L : SSt) : SOp → Res SSt
  | .call op => do
    let p ← op.run L.st
    return L.parent p
  | .make m => do
    let c ← St.new m
    return { L with pool := L.pool ++ [(c, none)] }
  | .item i op =>
    match L.pool[i]? with
    | none => .panic
    | some c => do
      let c' ← op.run c.1
      return L.item i c c'
  | .touch fn m => do
    let (_, L) ← L.access fn m
    return L
  | .append fn m ids => L.edit fn m fun is => some (is ++ ids)
  | .put fn m j id => L.edit fn m fun is => if j < is.length then some (is.set j id) else none
  | .setAll fn m ids => L.edit fn m fun _ => some ids
  | .clear fn => L.clear fn
  | .marshal => do
    let (_, L) ← L.marshal
    return L

def runSOps : List SOp → SSt → Res SSt
  | [], L => .ok L
  | op :: ops, L => do
    let L ← op.run L
    runSOps ops L

end Claw
