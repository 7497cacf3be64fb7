import Verif.Model.Metadata

/-!
# Metadata from values the caller keeps

`/repo/rpc/metadata/metadata.go` 34-56 and 73-75: `Pairs` and `Set` with byte slices, which the metadata then shares with
the caller.  The heap is the one of `Model/Metadata`.
-/

namespace Claw.Metadata

open Claw

/-- An argument of `Pairs`: a string, a byte slice (the whole buffer with the id), or a value of another type. -/
inductive Arg where
  | str (s : Bytes)
  | slice (b : Nat)
  | other
  deriving DecidableEq, Repr

namespace Heap

/-- `md[k] = v` for a byte slice. -/
def share (h : Heap) (m : Nat) (k : Str) (b : Nat) : Heap := { h with maps := h.maps.modify m (·.put k b) }

/-- metadata.go:73-75 with a slice the caller keeps. -/
def setSlice (low : Str → Str) (h : Heap) (m : Nat) (key : Str) (b : Nat) : Heap := h.share m (low key) b

/-- metadata.go:39-54.  That the number of arguments is even is looked at before (35-37): it is a panic either way. -/
def pairsLoop (low : Str → Str) (h : Heap) (m : Nat) : List Arg → Res Heap
  | [] => .ok h
  | .str k :: .str v :: r => pairsLoop low (h.put m (low k) v) m r
  | .str k :: .slice b :: r => pairsLoop low (h.share m (low k) b) m r
  | _ => .panic

/-- metadata.go:34-56 `Pairs`. -/
def pairs (low : Str → Str) (h : Heap) (args : List Arg) : Res (Heap × Nat) := do
  let h' ← pairsLoop low h.newMap h.maps.length args
  return (h', h.maps.length)

/-- The caller writes into a buffer: `copy(b, v)` with a `v` of the same length. -/
def write (h : Heap) (b : Nat) (v : Bytes) : Heap := { h with bufs := h.bufs.set b v }

end Heap

end Claw.Metadata
