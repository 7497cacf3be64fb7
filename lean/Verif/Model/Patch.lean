import Verif.Model.ListCache
import Verif.Model.Alias

/-!
# Diff and Apply

Models `/repo/languages/go/patch/{diff,apply,encoding}.go` on structs with list objects
(`Verif.Model.ListCache`). Simplified:

* a patch in memory is its version and its operations; a patch inside an operation is a message
  (`encodePatch`, `decodePatch`, with the generated code of `patch/msgs/msgs.go`);
* list objects for lists of structs are not kept: the list is read from the segment and written back
  at once (exact as long as no other call comes between the edit and `Marshal`);
* the messages inside a patch are decoded from a buffer without spare capacity;
* recording is off while a patch is applied.
-/

namespace Claw

/-- msgs.claw:27-36 `Op`. -/
structure POp where
  fn : UInt16
  ty : UInt8
  index : Int32
  data : Bytes
  deriving DecidableEq, Repr

/-- msgs.claw:4-23 `OpType`. -/
abbrev PSet : UInt8 := 1
abbrev PClear : UInt8 := 2
abbrev PStructPatch : UInt8 := 3
abbrev PListReplace : UInt8 := 4
abbrev PListSet : UInt8 := 5
abbrev PListInsert : UInt8 := 6
abbrev PListRemove : UInt8 := 7
abbrev PListStructPatch : UInt8 := 8

/-- msgs.claw:39-44 `Patch`. -/
structure Patch where
  version : UInt8
  ops : List POp
  deriving DecidableEq, Repr

/-! ### The messages -/

/-- The setters of one operation (diff.go:145-154 and the like). -/
def POp.prog (op : POp) : List Op :=
  [.set 0 .u16 op.fn, .set 1 .u8 op.ty, .set 2 .i32 op.index, .set 3 .bytes op.data]

/-- diff.go:308-332, 714-732: a sub-patch is built and marshalled. -/
def encodePatch (p : Patch) : Res Bytes := do
  let s ← run 2 [.set 0 .u8 p.version, .nestList 1 4 (p.ops.map POp.prog)]
  let (b, _) ← s.marshal
  return b

/-- msgs.go:171-203: the getters of one operation. -/
def readPOp (s : St) : Res POp := do
  let fn ← getUint16 s 0
  let ty ← getUint8 s 1
  let index ← getInt32 s 2
  let data ← getBytes s 3
  return ⟨fn, ty, index, data⟩

/-- apply.go:193-202, 773-781: unmarshal a sub-patch; `none` is an error. Its version is not looked at.
Each operation is read when its turn comes, so the result has one reading per operation. -/
def decodePatch (data : Bytes) : Res (Option (List (Res POp))) := do
  let s ← St.new 2
  match s.unmarshal data [] with
  | none => return none
  | some s =>
    match ← getListStructs s 1 4 with
    | none => return some []
    | some items => return some (items.map readPOp)

/-! ### Values in a patch -/

/-- Go's `==` on floats that are not NaN. -/
def F32.eqv (x y : F32) : Bool := x.bits == y.bits || (x.isZero && y.isZero)
def F64.eqv (x y : F64) : Bool := x.bits == y.bits || (x.isZero && y.isZero)

/-- diff.go:218-240, 541-543: equality of floats in a diff. -/
def F32.same (x y : F32) : Bool := (x.isNaN && y.isNaN) || (!x.isNaN && !y.isNaN && x.eqv y)
def F64.same (x y : F64) : Bool := (x.isNaN && y.isNaN) || (!x.isNaN && !y.isNaN && x.eqv y)

/-- diff.go:469, 541-543: equality of list items in a diff. -/
def NTy.same : (k : NTy) → k.Val → k.Val → Bool
  | .i8, x, y => x == y | .i16, x, y => x == y | .i32, x, y => x == y | .i64, x, y => x == y
  | .u8, x, y => x == y | .u16, x, y => x == y | .u32, x, y => x == y | .u64, x, y => x == y
  | .f32, x, y => F32.same x y | .f64, x, y => F64.same x y

/-- encoding.go:10-64: a number in a patch. -/
def NTy.patchData (k : NTy) (v : k.Val) : Bytes := putLE k.size (k.bits v)

/-- encoding.go:67-97 and the length checks of apply.go: the number in a patch, `none` when it is too
short. -/
def NTy.ofPatch (k : NTy) (d : Bytes) : Option k.Val :=
  if d.length < k.size then none else some (k.ofBits (getLE (d.take k.size)))

/-- A bool in a patch (diff.go:149-154), and read back (apply.go:93-96). -/
def boolData (b : Bool) : Bytes := if b then [1] else [0]
def boolOf (d : Bytes) : Option Bool := d.head?.map (· != 0)

/-- diff.go:141, 162-240, 259: equality of scalars in a diff. -/
def STy.same : (t : STy) → t.Val → t.Val → Bool
  | .bool, x, y => x == y
  | .i8, x, y => x == y | .i16, x, y => x == y | .i32, x, y => x == y | .i64, x, y => x == y
  | .u8, x, y => x == y | .u16, x, y => x == y | .u32, x, y => x == y | .u64, x, y => x == y
  | .f32, x, y => F32.same x y | .f64, x, y => F64.same x y
  | .bytes, x, y => x == y | .str, x, y => x == y
  | _, _, _ => true

/-- diff.go:149-154, 162-240, 276: the data of a `Set`. -/
def STy.patchData : (t : STy) → t.Val → Bytes
  | .bool, v => boolData v
  | .i8, v => NTy.patchData .i8 v | .i16, v => NTy.patchData .i16 v
  | .i32, v => NTy.patchData .i32 v | .i64, v => NTy.patchData .i64 v
  | .u8, v => NTy.patchData .u8 v | .u16, v => NTy.patchData .u16 v
  | .u32, v => NTy.patchData .u32 v | .u64, v => NTy.patchData .u64 v
  | .f32, v => NTy.patchData .f32 v | .f64, v => NTy.patchData .f64 v
  | .bytes, v => v | .str, v => v
  | _, _ => []

/-- apply.go:92-151: the value of a `Set`; `none` is an error (too short, or a type without `Set`). -/
def STy.ofPatch : (t : STy) → Bytes → Option t.Val
  | .bool, d => boolOf d
  | .i8, d => NTy.ofPatch .i8 d | .i16, d => NTy.ofPatch .i16 d
  | .i32, d => NTy.ofPatch .i32 d | .i64, d => NTy.ofPatch .i64 d
  | .u8, d => NTy.ofPatch .u8 d | .u16, d => NTy.ofPatch .u16 d
  | .u32, d => NTy.ofPatch .u32 d | .u64, d => NTy.ofPatch .u64 d
  | .f32, d => NTy.ofPatch .f32 d | .f64, d => NTy.ofPatch .f64 d
  | .bytes, d => some d | .str, d => some d
  | _, _ => none

/-- diff.go:991-1030 `createListReplaceBytes` (the same bytes as `encodeBytesForPatch`). -/
def replData (v : List Bytes) : Bytes := if v.length = 0 then [] else patchItems v

/-- apply.go:259-274: the items of a `ListReplace`; `none` when they are truncated. -/
def itemsOfF : Nat → Bytes → Option (List Bytes)
  | 0, _ => some []
  | n + 1, d =>
    if d.length < 4 then none
    else
      let itemLen := getLE (d.take 4)
      if (d.drop 4).length < itemLen then none
      else do
        let rest ← itemsOfF n ((d.drop 4).drop itemLen)
        return (d.drop 4).take itemLen :: rest

/-- apply.go:254-274. -/
def itemsOf (d : Bytes) : Option (List Bytes) :=
  if d.length < 4 then none else itemsOfF (getLE (d.take 4)) (d.drop 4)

/-! ### Diff -/

section Lists
variable {α : Type}

/-- diff.go:356-374: `ListSet` where both lists have an item and the items differ, from index `i` on. -/
def setOps (fn : UInt16) (eqv : α → α → Bool) (enc : α → Bytes) : Nat → List α → List α → List POp
  | i, x :: xs, y :: ys =>
    if eqv x y then setOps fn eqv enc (i + 1) xs ys
    else ⟨fn, PListSet, Int32.ofNat i, enc y⟩ :: setOps fn eqv enc (i + 1) xs ys
  | _, _, _ => []

/-- diff.go:376-388: `ListInsert` of the further items, from index `i` on. -/
def insOps (fn : UInt16) (enc : α → Bytes) : Nat → List α → List POp
  | _, [] => []
  | i, y :: ys => ⟨fn, PListInsert, Int32.ofNat i, enc y⟩ :: insOps fn enc (i + 1) ys

/-- diff.go:390-397: `ListRemove` of the indices `lo+n-1` down to `lo`. -/
def remOps (fn : UInt16) (lo : Nat) : Nat → List POp
  | 0 => []
  | n + 1 => ⟨fn, PListRemove, Int32.ofNat (lo + n), []⟩ :: remOps fn lo n

/-- diff.go:399-411: one `ListReplace` when there are more operations than half of the items. -/
def orReplace (fn : UInt16) (ops : List POp) (fromLen toLen : Nat) (repl : Bytes) : List POp :=
  if ops.length > 0 ∧ ops.length > (fromLen + toLen) / 2 then [⟨fn, PListReplace, -1, repl⟩] else ops

/-- diff.go:336-413 (and 442-512, 514-587, 589-672): the operations for one list. The numbers variant
compares the lists once more (diff.go:887-900); they differ whenever there is an operation. -/
def diffList (fn : UInt16) (eqv : α → α → Bool) (enc : α → Bytes) (repl : List α → Bytes) (a b : List α) :
    List POp :=
  orReplace fn (setOps fn eqv enc 0 a b ++ insOps fn enc a.length (b.drop a.length) ++
    remOps fn b.length (a.length - b.length)) a.length b.length (repl b)

end Lists

namespace LSt

/-- `GetListBools`, `GetListNumbers`, `GetListStrings`, `GetListBytes` (getters.go:15-230): the cached
object, or a new cached but unregistered object for the items of the segment, or nil. -/
def getL (L : LSt) (fn : Nat) (t : STy) : Res (Option Nat × LSt) :=
  match L.lists fn with
  | some id => .ok (some id, L)
  | none => do
    let st ← L.st.ensure
    match ← t.getList st fn with
    | some v => return (some L.heap.length, { L with
        st := st
        heap := L.heap ++ [LObj.mk fn t v false]
        lists := fun i => if i = fn then some L.heap.length else L.lists i })
    | none => return (none, { L with st := st })

/-- The object's items; a failed type assertion panics. -/
def items (L : LSt) (id : Nat) (t : STy) : Res t.Val :=
  match L.heap[id]? with
  | none => .panic
  | some o => if h : o.t = t then .ok (h ▸ o.v) else .panic

/-- The list as the getter shows it, nil is `none`. -/
def look (L : LSt) (fn : Nat) (t : STy) : Res (Option t.Val) := do
  let (o, L) ← L.getL fn t
  match o with
  | none => return none
  | some id =>
    let v ← L.items id t
    return some v

end LSt

/-- diff.go:705-734: `ListStructPatch` where both lists have an item and the sub-patch is not empty. -/
def patchItemOps (fn : UInt16) (d : St → St → Res (Option (List POp))) :
    Nat → List St → List St → Res (Option (List POp))
  | i, x :: xs, y :: ys => do
    match ← d x y with
    | none => return none
    | some ops =>
      match ← patchItemOps fn d (i + 1) xs ys with
      | none => return none
      | some rest =>
        if ops.length = 0 then return some rest
        else
          let b ← encodePatch ⟨1, ops⟩
          return some (⟨fn, PListStructPatch, Int32.ofNat i, b⟩ :: rest)
  | _, _, _ => .ok (some [])

/-- `Marshal` of a view that has no pending list. -/
def viewBytes (s : St) : Res Bytes := do
  let (b, _) ← s.marshal
  return b

/-- diff.go:1032-1059 `createListReplaceStructs`. -/
def structsData (items : List Bytes) : Bytes :=
  if items.length = 0 then [] else putLE 4 items.length ++ items.flatten

mutual
/-- diff.go:92-135 `diffField` with 137-775; `none` is an error. The getters are called on both structs. -/
def diffField : Ty → LSt → LSt → Nat → Res (Option (List POp))
  | .scalar .lbool, a, b, i => do
    let x ← a.look i .lbool
    let y ← b.look i .lbool
    return some (diffList (UInt16.ofNat i) (fun p q => p == q) boolData (fun l => l.map fun p => if p then 1 else 0)
      (x.getD []) (y.getD []))
  | .scalar (.lnum k), a, b, i => do
    let x ← a.look i (.lnum k)
    let y ← b.look i (.lnum k)
    return some (diffList (UInt16.ofNat i) k.same k.patchData (fun l => (l.map k.patchData).flatten)
      (x.getD []) (y.getD []))
  | .scalar .lstr, a, b, i => do
    let x ← a.look i .lstr
    let y ← b.look i .lstr
    return some (diffList (UInt16.ofNat i) (fun p q => p == q) id replData (x.getD []) (y.getD []))
  | .scalar .lbytes, a, b, i => do
    -- diff.go:608-609: a nil `*Bytes` in an interface is not nil, so `Len` is called on it
    let x ← a.look i .lbytes
    let y ← b.look i .lbytes
    match x, y with
    | some x, some y => return some (diffList (UInt16.ofNat i) (fun p q => p == q) id replData x y)
    | _, _ => .panic
  | .scalar .any, _, _, _ => .ok none
  | .scalar .lany, _, _, _ => .ok none
  | .scalar (.map _ _), _, _, _ => .ok none
  | .scalar t, a, b, i => do
    let x ← t.get a.st i
    let y ← t.get b.st i
    if t.same x y then return some []
    else if (t = .bytes ∨ t = .str) ∧ t.isZero y ∧ t.isZero x = false then
      return some [⟨UInt16.ofNat i, PClear, -1, []⟩]
    else return some [⟨UInt16.ofNat i, PSet, -1, t.patchData y⟩]
  | .struct tys, a, b, i => do
    let x ← getNestedStruct a.st i tys.length
    let y ← getNestedStruct b.st i tys.length
    match x, y with
    | none, none => return some []
    | some _, none => return some [⟨UInt16.ofNat i, PClear, -1, []⟩]
    | none, some y =>
      let d ← viewBytes y
      return some [⟨UInt16.ofNat i, PSet, -1, d⟩]
    | some x, some y =>
      match ← diffFields tys (LSt.ofSt x) (LSt.ofSt y) 0 with
      | none => return none
      | some ops =>
        if ops.length = 0 then return some []
        else
          let d ← encodePatch ⟨1, ops⟩
          return some [⟨UInt16.ofNat i, PStructPatch, -1, d⟩]
  | .structs tys, a, b, i => do
    let x ← getListStructs a.st i tys.length
    let y ← getListStructs b.st i tys.length
    let xs := x.getD []
    let ys := y.getD []
    match ← patchItemOps (UInt16.ofNat i) (fun p q => diffFields tys (LSt.ofSt p) (LSt.ofSt q) 0) 0 xs ys with
    | none => return none
    | some sets =>
      let data ← mapRes viewBytes ys
      return some (orReplace (UInt16.ofNat i) (sets ++ insOps (UInt16.ofNat i) id xs.length (data.drop xs.length) ++
        remOps (UInt16.ofNat i) ys.length (xs.length - ys.length)) xs.length ys.length (structsData data))
/-- diff.go:65-88 `diffStructToPatch`: the fields from number `i` on. -/
def diffFields : List Ty → LSt → LSt → Nat → Res (Option (List POp))
  | [], _, _, _ => .ok (some [])
  | ty :: tys, a, b, i => do
    match ← diffField ty a b i with
    | none => return none
    | some ops =>
      match ← diffFields tys a b (i + 1) with
      | none => return none
      | some rest => return some (ops ++ rest)
end

/-- diff.go:38-62 `Diff` for two structs of one type that has not the NoPatch option. -/
def diffPatch (tys : List Ty) (a b : LSt) : Res (Option Patch) := do
  match ← diffFields tys a b 0 with
  | none => return none
  | some ops => return some ⟨1, ops⟩

/-! ### Apply

The Boolean of a result tells whether an error is returned. -/

namespace LSt

/-- `NewBools`, `NewStrings`, `NewBytes` followed by `SetAll`: a new object, cached and registered. -/
def renew (L : LSt) (fn : Nat) (t : STy) (v : t.Val) : LSt :=
  register { L with heap := L.heap ++ [LObj.mk fn t v true] } fn L.heap.length

/-- `ClearListCache`, struct.go:297-301. -/
def uncache (L : LSt) (fn : Nat) : LSt := { L with lists := fun i => if i = fn then none else L.lists i }

/-- getters.go:330-349 `SetListNumbersRaw`. -/
def setRaw (L : LSt) (k : NTy) (fn : Nat) (d : Bytes) : Res LSt := do
  if d.length = 0 then
    let st ← L.st.removeField fn
    return uncache { L with st := st } fn
  else
    let h ← Res.ofOption (encodeHeaderAt (zeros (HeaderSize + d.length)) fn k.ft (HeaderSize + d.length))
    let st ← L.st.insertField fn (goCopy h HeaderSize d)
    return uncache { L with st := st } fn

/-- struct.go:317-329 `SyncDirtyListsForField`. -/
def syncField (L : LSt) (fn : Nat) : Res LSt := do
  let L' ← L.syncAll (L.dirtyLists.filter fun p => p.1 = fn)
  return { L' with dirtyLists := L.dirtyLists.filter fun p => p.1 ≠ fn }

end LSt

/-- apply.go:411-428, 505-516: the item bytes of a number list in the segment, cut to whole items;
`none` when the field is not there. -/
def rawItems (k : NTy) (s : St) (fn : Nat) : Res (Option Bytes) := do
  match ← getListNums k s fn with
  | none => return none
  | some n => return some n.data

/-- How a list of bools, strings or byte slices is edited: its length, set, insert (with one allocation
and two copies) and remove; `none` is "data too short". -/
def STy.len : (t : STy) → t.Val → Nat
  | .lbool, v => v.length | .lstr, v => v.length | .lbytes, v => v.length | _, _ => 0
/-- apply.go:324-331, 352-364. -/
def STy.setItem : (t : STy) → Nat → Bytes → t.Val → Option t.Val
  | .lbool, i, d, v => (boolOf d).map fun b => List.set v i b
  | .lstr, i, d, v => some (List.set v i d)
  | .lbytes, i, d, v => some (List.set v i d)
  | _, _, _, _ => none
/-- apply.go:482-494, 543-551, 563-571. -/
def STy.insItem : (t : STy) → Nat → Bytes → t.Val → Option t.Val
  | .lbool, i, d, v => (boolOf d).map fun b => List.take i v ++ b :: List.drop i v
  | .lstr, i, d, v => some (List.take i v ++ d :: List.drop i v)
  | .lbytes, i, d, v => some (List.take i v ++ d :: List.drop i v)
  | _, _, _, _ => none
/-- apply.go:655-661, 702-708, 720-726. -/
def STy.remItem : (t : STy) → Nat → t.Val → t.Val
  | .lbool, i, v => List.take i v ++ List.drop (i + 1) v
  | .lstr, i, v => List.take i v ++ List.drop (i + 1) v
  | .lbytes, i, v => List.take i v ++ List.drop (i + 1) v
  | _, _, v => v
/-- apply.go:238-246, 254-288: the items of a `ListReplace`. -/
def STy.replItems : (t : STy) → Bytes → Option t.Val
  | .lbool, d => some (d.map (· != 0))
  | .lstr, d => itemsOf d
  | .lbytes, d => itemsOf d
  | _, _ => none

/-- Is it a list type kept as a slice of items? -/
def STy.isSlice : STy → Bool
  | .lbool | .lstr | .lbytes => true
  | _ => false

/-- apply.go:85-164 `applySet`. -/
def applySet (L : LSt) (fd : Option Ty) (fn : Nat) (d : Bytes) : Res (LSt × Bool) :=
  match fd with
  | none => .ok (L, false)
  | some (.scalar t) =>
    match t.ofPatch d with
    | none => .ok (L, true)
    | some v => do
      let st ← t.set L.st fn v
      return ({ L with st := st }, false)
  | some (.struct tys) => do
    let c ← St.new tys.length
    match c.unmarshal d [] with
    | none => return (L, true)
    | some c =>
      let st ← setNestedStruct L.st fn (some c)
      return ({ L with st := st }, false)
  | some (.structs _) => .ok (L, true)

/-- apply.go:166-175 `applyClear`. -/
def applyClear (L : LSt) (fd : Option Ty) (fn : Nat) : Res (LSt × Bool) :=
  match fd with
  | none => .ok (L, false)
  | some _ => do
    let L ← L.clear fn
    return (L, false)

/-- struct.go:452-491 `UnmarshalReader` of `n` structs one after the other (apply.go:299-307). The
result are their segments; `none` is an error. -/
def readStructs : Nat → Bytes → Option (List Bytes)
  | 0, _ => some []
  | n + 1, d =>
    if d.length < HeaderSize then none
    else
      match decodeHeader (d.take HeaderSize) with
      | none => none
      | some (_, ft, size) =>
        if ft ≠ FTStruct ∨ size < HeaderSize ∨ d.length < size then none
        else do
          let rest ← readStructs n (d.drop size)
          return d.take size :: rest

/-- Write the segments of the items of a struct list (see the head of this file). -/
def storeStructs (L : LSt) (fn : Nat) (items : List Bytes) : Res LSt := do
  let st ← syncList L.st fn (items.length == 0) (structsBlob fn items)
  return { L with st := st }

/-- The segments of the items in the struct, `none` when the field is not there. -/
def structItems (L : LSt) (fn m : Nat) : Res (Option (List Bytes)) := do
  match ← getListStructs L.st fn m with
  | none => return none
  | some items => return some (items.map fun s => s.seg.data)

/-- apply.go:212-312 `applyListReplace`. `NewStructs` (apply.go:299) reads the items that are already
there, and the new ones are appended to them. -/
def applyListReplace (L : LSt) (fd : Option Ty) (fn : Nat) (d : Bytes) : Res (LSt × Bool) :=
  match fd with
  | none => .ok (L, false)
  | some ty =>
    if d.length = 0 then applyClear L (some ty) fn
    else
      match ty with
      | .scalar (.lnum k) => do
        let L ← L.setRaw k fn d
        return (L, false)
      | .scalar t =>
        match t.replItems d with
        | none => .ok (L, true)
        | some v => .ok (L.renew fn t v, false)
      | .struct _ => .ok (L, true)
      | .structs tys =>
        if d.length < 4 then .ok (L, true)
        else do
          let old ← structItems L fn tys.length
          match readStructs (getLE (d.take 4)) (d.drop 4) with
          | none => return (L, true)
          | some new =>
            let L ← storeStructs L fn (old.getD [] ++ new)
            return (L, false)

/-- apply.go:314-399 `applyListSet`; the index is not negative. -/
def applyListSet (L : LSt) (fd : Option Ty) (fn i : Nat) (d : Bytes) : Res (LSt × Bool) :=
  match fd with
  | none => .ok (L, false)
  | some (.scalar (.lnum k)) => do
    let L ← L.syncField fn
    match ← rawItems k L.st fn with
    | none => return (L, true)
    | some items =>
      if i * k.size ≥ items.length then return (L, true)
      else if d.length < k.size then return (L, true)
      else
        let L ← L.setRaw k fn (goCopy items (i * k.size) (d.take k.size))
        return (L, false)
  | some (.scalar t) =>
    if t.isSlice then do
      let (o, L) ← L.getL fn t
      match o with
      | none => return (L, true)
      | some id =>
        let v ← L.items id t
        if i ≥ t.len v then return (L, true)
        else
          match t.setItem i d v with
          | none => return (L, true)
          | some w => return ({ L with heap := L.heap.set id (LObj.mk fn t w true) }, false)
    else .ok (L, true)
  | some (.struct _) => .ok (L, true)
  | some (.structs tys) => do
    match ← structItems L fn tys.length with
    | none => return (L, true)
    | some items =>
      if i ≥ items.length then return (L, true)
      else
        let c ← St.new tys.length
        match c.unmarshal d [] with
        | none => return (L, true)
        | some c =>
          let L ← storeStructs L fn (items.set i c.seg.data)
          return (L, false)

/-- apply.go:430-601 `applyListInsert`; the index is not negative. The struct variant appends to a list
that `NewStructs` (apply.go:588) has already filled with the items. -/
def applyListInsert (L : LSt) (fd : Option Ty) (fn i : Nat) (d : Bytes) : Res (LSt × Bool) :=
  match fd with
  | none => .ok (L, false)
  | some (.scalar (.lnum k)) => do
    if d.length < k.size then return (L, true)
    else
      let items ← rawItems k L.st fn
      let items := items.getD []
      if i > items.length / k.size then return (L, true)
      else
        let L ← L.setRaw k fn (items.take (i * k.size) ++ d.take k.size ++ items.drop (i * k.size))
        return (L, false)
  | some (.scalar t) =>
    if t.isSlice then do
      let (o, L) ← L.getL fn t
      let v ← match o with
        | none => Res.ok t.zero
        | some id => L.items id t
      if i > t.len v then return (L, true)
      else
        match t.insItem i d v with
        | none => return (L, true)
        | some w => return (L.renew fn t w, false)
    else .ok (L, true)
  | some (.struct _) => .ok (L, true)
  | some (.structs tys) => do
    let items ← structItems L fn tys.length
    let items := items.getD []
    if i > items.length then return (L, true)
    else
      let c ← St.new tys.length
      match c.unmarshal d [] with
      | none => return (L, true)
      | some c =>
        let L ← storeStructs L fn (items ++ (items.take i ++ c.seg.data :: items.drop i))
        return (L, false)

/-- apply.go:603-749 `applyListRemove`; the index is not negative. -/
def applyListRemove (L : LSt) (fd : Option Ty) (fn i : Nat) : Res (LSt × Bool) :=
  match fd with
  | none => .ok (L, false)
  | some (.scalar (.lnum k)) => do
    let L ← L.syncField fn
    match ← rawItems k L.st fn with
    | none => return (L, true)
    | some items =>
      if i ≥ items.length / k.size then return (L, true)
      else if items.length / k.size = 1 then
        let L ← L.clear fn
        return (L, false)
      else
        let L ← L.setRaw k fn (items.take (i * k.size) ++ items.drop (i * k.size + k.size))
        return (L, false)
  | some (.scalar t) =>
    if t.isSlice then do
      let (o, L) ← L.getL fn t
      match o with
      | none => return (L, true)
      | some id =>
        let v ← L.items id t
        if i ≥ t.len v then return (L, true)
        else if t.len v = 1 then
          let L ← L.clear fn
          return (L, false)
        else return (L.renew fn t (t.remItem i v), false)
    else .ok (L, true)
  | some (.struct _) => .ok (L, true)
  | some (.structs tys) => do
    match ← structItems L fn tys.length with
    | none => return (L, true)
    | some items =>
      if i ≥ items.length then return (L, true)
      else if items.length = 1 then
        let L ← L.clear fn
        return (L, false)
      else
        let L ← storeStructs L fn (items ++ (items.take i ++ items.drop (i + 1)))
        return (L, false)

/-- A struct that lives in the array of another: `mem` is the content of the window it was created on
(from its first byte to the end of the array), `shared` tells that it still lives there. -/
structure Win where
  L : LSt
  mem : Bytes
  shared : Bool

/-- apply.go:203-209, 782-787: apply operation after operation, stop at the first error. The window follows
the struct as in `View.step`. -/
def patchLoop (f : LSt → POp → Res (LSt × Bool)) : Win → List (Res POp) → Res (Win × Bool)
  | w, [] => .ok (w, false)
  | w, rd :: ops => do
    let op ← rd
    let (L, err) ← f w.L op
    let w' : Win :=
      if w.shared = true ∧ L.st.seg.cap = w.L.st.seg.cap then ⟨L, L.st.seg.data ++ L.st.seg.spare, true⟩
      else ⟨L, w.mem, false⟩
    if err then return (w', true) else patchLoop f w' ops

/-- apply.go:51-83 `applyOpWithDepth`, 177-210 `applyStructPatch`, 751-788 `applyListStructPatch`; `fuel`
is `MaxPatchNestingDepth - depth`. -/
def applyOp (fuel : Nat) (tys : List Ty) (L : LSt) (op : POp) : Res (LSt × Bool) :=
  let fn := op.fn.toNat
  let fd := tys[fn]?
  if op.ty = PSet then applySet L fd fn op.data
  else if op.ty = PClear then applyClear L fd fn
  else if op.ty = PStructPatch then
    match fuel with
    | 0 => .ok (L, true)
    | fuel + 1 =>
      match fd with
      | some (.struct ctys) => do
        match ← View.get L.st fn ctys.length with
        | none =>
          let c ← St.new ctys.length
          let st ← setNestedStruct L.st fn (some c)
          let L := { L with st := st }
          match ← decodePatch op.data with
          | none => return (L, true)
          | some ops =>
            let (_, err) ← patchLoop (applyOp fuel ctys) ⟨LSt.ofSt c, [], false⟩ ops
            return (L, err)
        | some v =>
          match ← decodePatch op.data with
          | none => return ({ L with st := v.parent }, true)
          | some ops =>
            let (w, err) ← patchLoop (applyOp fuel ctys)
              ⟨LSt.ofSt v.child, v.child.seg.data ++ v.child.seg.spare, true⟩ ops
            return ({ L with st := v.parent.overwrite v.off w.mem }, err)
      | _ => .ok (L, true)
  else if op.ty = PListReplace then applyListReplace L fd fn op.data
  else if op.ty = PListSet then
    if fd.isSome ∧ op.index < 0 then .ok (L, true) else applyListSet L fd fn op.index.toInt.toNat op.data
  else if op.ty = PListInsert then
    if fd.isSome ∧ op.index < 0 then .ok (L, true) else applyListInsert L fd fn op.index.toInt.toNat op.data
  else if op.ty = PListRemove then
    if fd.isSome ∧ op.index < 0 then .ok (L, true) else applyListRemove L fd fn op.index.toInt.toNat
  else if op.ty = PListStructPatch then
    match fuel with
    | 0 => .ok (L, true)
    | fuel + 1 =>
      match fd with
      | some (.structs ctys) => do
        match ← getListStructs L.st fn ctys.length with
        | none => return (L, true)
        | some items =>
          if op.index < 0 then .panic
          else
            match items[op.index.toInt.toNat]? with
            | none => return (L, true)
            | some item =>
              match ← decodePatch op.data with
              | none => return (L, true)
              | some ops =>
                let st ← L.st.ensure
                let (w, err) ← patchLoop (applyOp fuel ctys)
                  ⟨LSt.ofSt item, item.seg.data ++ item.seg.spare, true⟩ ops
                return ({ L with st := st.overwrite (st.seg.cap - item.seg.cap) w.mem }, err)
      | _ => .ok (L, true)
  else .ok (L, false)

/-- apply.go:15-22. -/
def maxPatchOps : Nat := 10000
def maxPatchDepth : Nat := 100

/-- apply.go:27-48 `Apply`. -/
def applyPatch (tys : List Ty) (L : LSt) (p : Patch) : Res (LSt × Bool) :=
  if p.version ≠ 1 then .ok (L, true)
  else if p.ops.length > maxPatchOps then .ok (L, true)
  else do
    let (w, err) ← patchLoop (applyOp maxPatchDepth tys) ⟨L, [], false⟩ (p.ops.map .ok)
    return (w.L, err)

end Claw
