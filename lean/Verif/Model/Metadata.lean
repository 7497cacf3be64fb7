import Verif.Model.GoStr
import Verif.Model.Res

/-!
# RPC metadata

`/repo/rpc/metadata/metadata.go`.  An `MD` is a Go map from strings to byte slices: both are
references, so a heap of maps and a heap of byte buffers are modelled and `Get` gives a
buffer, not its contents.  `strings.ToLower` is a parameter `low`, so the results hold for
Go's Unicode lower-casing as well as for the ASCII one of `Str.lower`.

A context is modelled by the metadata it carries: `none` when `FromContext` says there is
none, `some none` when a nil `MD` is attached, `some (some m)` for the map with id `m`.
-/

namespace Claw.Metadata

open Claw

/-- The entries of a Go map with a finite key set. -/
abbrev AMap := List (Str × Nat)

namespace AMap

/-- `m[k]` with its presence. -/
def look (m : AMap) (k : Str) : Option Nat := (m.find? fun e => e.1 = k).map (·.2)

/-- `m[k] = b`. -/
def put : AMap → Str → Nat → AMap
  | [], k, b => [(k, b)]
  | e :: m, k, b => if e.1 = k then (k, b) :: m else e :: put m k b

/-- `delete(m, k)`. -/
def del (m : AMap) (k : Str) : AMap := m.filter fun e => decide (e.1 ≠ k)

end AMap

/-- Maps by id, byte buffers by id. -/
structure Heap where
  maps : List AMap
  bufs : List Bytes
  deriving DecidableEq, Repr

namespace Heap

/-- The buffer stored in map `m` under exactly the key `k`. -/
def look (h : Heap) (m : Nat) (k : Str) : Option Nat := (h.maps[m]?).bind (·.look k)

/-- The contents of that buffer. -/
def view (h : Heap) (m : Nat) (k : Str) : Option Bytes := (h.look m k).bind (h.bufs[·]?)

/-- `md[k] = []byte(v)` with a new buffer. -/
def put (h : Heap) (m : Nat) (k : Str) (v : Bytes) : Heap :=
  { maps := h.maps.modify m (·.put k h.bufs.length), bufs := h.bufs ++ [v] }

/-- `make(MD)`: the id of the new map is the number of maps so far. -/
def newMap (h : Heap) : Heap := { h with maps := h.maps ++ [[]] }

/-- metadata.go:59-61, the contents of `md.Get(key)`. -/
def get (low : Str → Str) (h : Heap) (m : Nat) (key : Str) : Option Bytes := h.view m (low key)

/-- metadata.go:73-80 (`Set` with a slice the caller does not keep, or `SetString`). -/
def set (low : Str → Str) (h : Heap) (m : Nat) (key : Str) (v : Bytes) : Heap :=
  h.put m (low key) v

/-- metadata.go:83-85. -/
def delete (low : Str → Str) (h : Heap) (m : Nat) (key : Str) : Heap :=
  { h with maps := h.maps.modify m (·.del (low key)) }

/-- Overwriting, in place, the bytes that `md.Get(key)` returned: `copy(md.Get(key), v)`. -/
def scribble (low : Str → Str) (h : Heap) (m : Nat) (key : Str) (v : Bytes) : Heap :=
  match h.look m (low key) with
  | none => h
  | some b =>
    { h with bufs := h.bufs.modify b fun old => v.take old.length ++ old.drop v.length }

/-- The loop of metadata.go:93-97. -/
def cloneLoop (h : Heap) (dst : Nat) : AMap → Heap
  | [] => h
  | (k, b) :: es => cloneLoop (h.put dst k ((h.bufs[b]?).getD [])) dst es

/-- metadata.go:88-99 for a non-nil map. -/
def clone (h : Heap) (m : Nat) : Heap × Nat :=
  (h.newMap.cloneLoop h.maps.length ((h.maps[m]?).getD []), h.maps.length)

/-- The loops of metadata.go:25-28 and :159-161 over complete pairs. -/
def setPairs (low : Str → Str) (h : Heap) (m : Nat) : List (Str × Bytes) → Heap
  | [] => h
  | (k, v) :: kv => setPairs low (h.set low m k v) m kv

/-- metadata.go:20-30 with an even number of arguments. -/
def newMD (low : Str → Str) (h : Heap) (kv : List (Str × Bytes)) : Heap × Nat :=
  (h.newMap.setPairs low h.maps.length kv, h.maps.length)

end Heap

/-- The metadata part of a context. -/
abbrev Ctx := Option (Option Nat)

/-- Pairing up the variadic arguments; `none` when their number is odd. -/
def pairUp : List Str → Option (List (Str × Bytes))
  | [] => some []
  | [_] => none
  | k :: v :: kv => (pairUp kv).map ((k, v) :: ·)

/-- metadata.go:152-164.  An odd number of arguments panics on both paths (in `New`, or by
indexing past the end); storing into a nil map panics. -/
def appendToContext (low : Str → Str) (h : Heap) (ctx : Ctx) (kv : List Str) :
    Res (Heap × Ctx) :=
  match ctx with
  | none =>
    match pairUp kv with
    | none => .panic
    | some kv => let (h, m) := h.newMD low kv; .ok (h, some (some m))
  | some none => if kv = [] then .ok (h, some none) else .panic
  | some (some m) =>
    match pairUp kv with
    | none => .panic
    | some kv => let (h, c) := h.clone m; .ok (h.setPairs low c kv, some (some c))

/-! ## Histories -/

/-- What a program does with contexts; contexts are numbered in order of creation. -/
inductive Op where
  /-- a context without metadata -/
  | background
  /-- `AppendToContext(ctxs[i], kv...)` -/
  | append (i : Nat) (kv : List Str)
  /-- `md, _ := FromContext(ctxs[i]); md.Set(k, v)` -/
  | set (i : Nat) (k : Str) (v : Bytes)
  /-- `md.Delete(k)` -/
  | delete (i : Nat) (k : Str)
  /-- `copy(md.Get(k), v)` -/
  | scribble (i : Nat) (k : Str) (v : Bytes)
  deriving DecidableEq, Repr

/-- A program state. -/
structure St where
  heap : Heap
  ctxs : List Ctx
  deriving DecidableEq, Repr

/-- One operation; a context that does not exist is a caller's mistake and a panic here. -/
def step (low : Str → Str) (s : St) : Op → Res St
  | .background => .ok { s with ctxs := s.ctxs ++ [none] }
  | .append i kv =>
    match s.ctxs[i]? with
    | none => .panic
    | some ctx =>
      match appendToContext low s.heap ctx kv with
      | .ok (h, c) => .ok { heap := h, ctxs := s.ctxs ++ [c] }
      | .panic => .panic
      | .hang => .hang
  | .set i k v =>
    match s.ctxs[i]? with
    | some (some (some m)) => .ok { s with heap := s.heap.set low m k v }
    | _ => .panic
  | .delete i k =>
    match s.ctxs[i]? with
    | some (some (some m)) => .ok { s with heap := s.heap.delete low m k }
    | some _ => .ok s
    | none => .panic
  | .scribble i k v =>
    match s.ctxs[i]? with
    | some (some (some m)) => .ok { s with heap := s.heap.scribble low m k v }
    | some _ => .ok s
    | none => .panic

/-- A history. -/
def run (low : Str → Str) : List Op → St → Res St
  | [], s => .ok s
  | op :: ops, s =>
    match step low s op with
    | .ok s => run low ops s
    | .panic => .panic
    | .hang => .hang

/-- `md, ok := FromContext(ctxs[i]); md.Get(k)`. -/
def St.get (low : Str → Str) (s : St) (i : Nat) (k : Str) : Option Bytes :=
  match s.ctxs[i]? with
  | some (some (some m)) => s.heap.get low m k
  | _ => none

def St.init : St := { heap := { maps := [], bufs := [] }, ctxs := [] }

/-! ## The wire form -/

/-- metadata.go:107-117, from the received key/value pairs (contents only). -/
def fromMsgs (low : Str → Str) (kvs : List (Str × Bytes)) : Dict Str Bytes :=
  kvs.foldl (fun m e => m.set (low e.1) e.2) Dict.empty

end Claw.Metadata
