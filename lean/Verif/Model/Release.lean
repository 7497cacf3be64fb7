import Verif.Model.Alias
import Verif.Model.Framing

/-!
# Releasing structs

`Release` (struct.go:525-533, generated for every struct, struct.tmpl) gives the segment and the field index of a struct to the pools
of its schema, from which `New` (struct.go:92-105) takes them (segment.go:15-138).

Simplified: the pools (package sync of gostdlib/base) hand out any of what was put into them or something new, and call `Reset` when
a segment is put into them, as the comment at segment.go:67 says. The schemas are numbers, `fields` tells how many fields they have;
all are registered, as the generated code does (mapping.go:146-177). Only one goroutine calls at a time. The structs made inside a
call (`Op.nest`, `Op.nestList`) have memory of their own; a struct from the pool that is stored in another one is `Act.embed`.
-/

namespace Claw

/-- segment.go:175-178 `Reset`. -/
def Seg.reset (g : Seg) : Res Seg := if g.cap < 8 then .panic else .ok ⟨zeros 8, (g.data ++ g.spare).drop 8⟩

/-- struct.go:101-102: `New` writes the header of the struct. -/
def Seg.renew (g : Seg) : Res Seg := do
  let b ← Res.ofOption (encodeHeaderAt (g.data.take 8) 0 FTStruct 8)
  return { g with data := b ++ g.data.drop 8 }

/-- struct.go:94-105 `New` with a segment from the pool. -/
def St.renew (m : Nat) (g : Seg) : Res St := do
  let g ← g.renew
  return ⟨g, List.replicate m Entry.zero, false, false, none, false, []⟩

namespace Release

/-- A struct in use: where its segment and its index are, the rest of it (struct.go:21-52), and, without effect, the calls it had. -/
structure Obj where
  kind : Nat
  seg : Nat
  idx : Nat
  parsed : Bool
  isSetEnabled : Bool
  isSetBits : Option Bytes
  recording : Bool
  ops : List RecOp
  calls : List Op

structure State where
  segs : Nat → Seg
  idxs : Nat → List Entry
  nextSeg : Nat
  nextIdx : Nat
  /-- what is in the pools, with the schema -/
  freeSegs : List (Nat × Nat)
  freeIdxs : List (Nat × Nat)
  objs : Nat → Option Obj
  made : Nat

def init : State := ⟨fun _ => Seg.new 64, fun _ => [], 0, 0, [], [], fun _ => none, 0⟩

def set {α : Type} (f : Nat → α) (i : Nat) (x : α) : Nat → α := fun j => if j = i then x else f j

/-- The struct with its memory. -/
def State.st (s : State) (o : Obj) : St :=
  ⟨s.segs o.seg, s.idxs o.idx, o.parsed, o.isSetEnabled, o.isSetBits, o.recording, o.ops⟩

/-- Struct `h` has become `t` by the call `op`. -/
def State.put (s : State) (h : Nat) (o : Obj) (t : St) (op : Op) : State :=
  { s with
    segs := set s.segs o.seg t.seg
    idxs := set s.idxs o.idx t.idx
    objs := set s.objs h (some
      ⟨o.kind, o.seg, o.idx, t.parsed, t.isSetEnabled, t.isSetBits, t.recording, t.ops, o.calls ++ [op]⟩) }

/-- segment.go:50-59 `Get`: a segment of the pool, or a new one. -/
def State.takeSeg (s : State) (k : Nat) : Option Nat → Nat × State
  | some a => (a, { s with freeSegs := s.freeSegs.erase (k, a) })
  | none => (s.nextSeg, { s with segs := set s.segs s.nextSeg (Seg.new 64), nextSeg := s.nextSeg + 1 })

/-- segment.go:110-117 `Get`. -/
def State.takeIdx (s : State) (fields : Nat → Nat) (k : Nat) : Option Nat → Nat × State
  | some a => (a, { s with freeIdxs := s.freeIdxs.erase (k, a) })
  | none => (s.nextIdx, { s with idxs := set s.idxs s.nextIdx (List.replicate (fields k) Entry.zero), nextIdx := s.nextIdx + 1 })

inductive Act where
  /-- `New` of a struct of schema `k`; `g` and `i` tell what the pools hand out -/
  | new (k : Nat) (g i : Option Nat)
  | call (h : Nat) (op : Op)
  /-- the setter of field `fn` of `h`, a nested struct, is called with `c` -/
  | embed (h fn c : Nat)
  | release (h : Nat)

def step (fields : Nat → Nat) (s : State) : Act → Res State
  | .new k g i => do
    let (a, s) := s.takeSeg k g
    let (b, s) := s.takeIdx fields k i
    let seg ← (s.segs a).renew
    return { s with
      segs := set s.segs a seg
      objs := set s.objs s.made (some ⟨k, a, b, false, false, none, false, [], []⟩)
      made := s.made + 1 }
  | .call h op =>
    match s.objs h with
    | none => .panic
    | some o => do
      let t ← op.run (s.st o)
      return s.put h o t op
  | .embed h fn c =>
    match s.objs h, s.objs c with
    | some o, some p => do
      let t ← setNestedStruct (s.st o) fn (some (s.st p))
      return s.put h o t (.nest fn (fields p.kind) p.calls)
    | _, _ => .panic
  | .release h =>
    match s.objs h with
    | none => .panic
    | some o => do
      let g ← (s.segs o.seg).reset
      return { s with
        segs := set s.segs o.seg g
        idxs := set s.idxs o.idx ((s.idxs o.idx).map fun _ => Entry.zero)
        freeSegs := (o.kind, o.seg) :: s.freeSegs
        freeIdxs := (o.kind, o.idx) :: s.freeIdxs
        objs := set s.objs h none }

end Release

/-! ### A nested struct is released -/

/-- `Release` of a nested struct that shares its parent's array. -/
def View.release (v : View) : Res View := do
  let g ← v.child.seg.reset
  let c := { v.child with seg := g, idx := v.child.idx.map fun _ => Entry.zero }
  if v.shared then return { v with child := c, parent := v.parent.overwrite v.off (g.data ++ g.spare) }
  else return { v with child := c }

/-- `New` takes the segment that was released. -/
def View.renew (m : Nat) (v : View) : Res View := do
  let c ← St.renew m v.child.seg
  if v.shared then return { v with child := c, parent := v.parent.overwrite v.off (c.seg.data ++ c.seg.spare) }
  else return { v with child := c }

end Claw
