import Verif.Model.Res
import Verif.Model.ErrCode

/-!
# Registration of pools

`/repo/clawc/languages/go/segment/segment.go:15-127`: `SegmentPools` and `FieldIndexPools` (the same
code twice).  The table is an immutable map behind an atomic pointer, replaced by compare-and-swap.
Mappings and pools are numbers; a pointer is a position in `heap`, which only grows (a map that a
goroutine still refers to is not collected, so its address is not used again).  Any number of
goroutines run `RegisterPool` and `Get` in any interleaving of their atomic steps.
-/

namespace Claw.Cas

/-- The entries of a Go map from mappings to pools. -/
abbrev Table := List (Nat × Nat)

/-- `t[m]` with its presence. -/
def Table.look (t : Table) (m : Nat) : Option Nat := (t.find? fun e => e.1 == m).map (·.2)

/-- The memory shared by all goroutines. -/
structure Shared where
  heap : List Table
  cur : Nat
  deriving DecidableEq, Repr

/-- Where one goroutine is. `again` tells whether `RegisterPool` was called from `Get`. -/
inductive Th where
  /-- before segment.go:31 (or :91) -/
  | load (m : Nat) (again : Bool)
  /-- before segment.go:43 (or :104), with the pointers `old` and `&newMap` -/
  | cas (m old new : Nat) (again : Bool)
  /-- `RegisterPool(m)` has returned -/
  | registered (m : Nat)
  /-- before segment.go:51 (or :111) -/
  | get (m : Nat)
  /-- before segment.go:55 (or :114) -/
  | reget (m : Nat)
  /-- `Get(m)` uses this pool -/
  | got (m p : Nat)
  /-- a method call on a nil pool -/
  | panicked
  deriving DecidableEq, Repr

/-- Where `RegisterPool` returns to. -/
def Th.ret (m : Nat) (again : Bool) : Th := if again then .reget m else .registered m

/-- One atomic step of a goroutine. Loading the pointer, reading the map behind it and building the
clone is one step: the map behind a published pointer never changes and the clone is private. -/
def advance (s : Shared) : Th → Shared × Th
  | .load m again =>
    let t := (s.heap[s.cur]?).getD []
    match t.look m with
    | some _ => (s, .ret m again)
    | none =>
      ({ s with heap := s.heap ++ [t ++ [(m, s.heap.length)]] }, .cas m s.cur s.heap.length again)
  | .cas m old new again =>
    if s.cur = old then ({ s with cur := new }, .ret m again)
    else (s, .load m again)
  | .get m =>
    match ((s.heap[s.cur]?).getD []).look m with
    | some p => (s, .got m p)
    | none => (s, .load m true)
  | .reget m =>
    match ((s.heap[s.cur]?).getD []).look m with
    | some p => (s, .got m p)
    | none => (s, .panicked)
  | .registered m => (s, .registered m)
  | .got m p => (s, .got m p)
  | .panicked => (s, .panicked)

/-- The whole program. -/
structure St where
  sh : Shared
  ths : List Th
  deriving DecidableEq, Repr

/-- segment.go:21-26, :81-86. -/
def init : St := ⟨⟨[[]], 0⟩, []⟩

/-- A goroutine starts one of the two calls, or some goroutine takes a step. -/
inductive Step : St → St → Prop
  | register (s m) : Step s { s with ths := s.ths ++ [.load m false] }
  | get (s m) : Step s { s with ths := s.ths ++ [.get m] }
  | run (s i th) : s.ths[i]? = some th →
      Step s ⟨(advance s.sh th).1, s.ths.set i (advance s.sh th).2⟩

/-- States of some execution. -/
abbrev Reach (s : St) : Prop := ErrCode.Steps Step init s

/-- The pool a caller would find now. -/
def St.pool (s : St) (m : Nat) : Option Nat := ((s.sh.heap[s.sh.cur]?).getD []).look m

end Claw.Cas
