import Verif.Model.Res
import Verif.Model.Bytes

/-!
# Lists of bytes and the slices of the program

`/repo/clawc/languages/go/segment/lists.go` 800-950: the methods of `Bytes` on memory.  A slice is the whole buffer with an
id.  `mine` are the buffers the program can write to: those it made, and those that methods handed out.  Simplified:
recording is off; the message is the list of the items that were written last; `SyncToSegment` does not fail.
-/

namespace Claw.BytesList

open Claw

/-- The program: memory, the items of the list, its flag, what the message has, and the buffers the program knows. -/
structure P where
  bufs : List Bytes
  items : List Nat
  dirty : Bool
  msg : List Bytes
  mine : List Nat
  deriving DecidableEq, Repr

/-- The bytes of a buffer. -/
def P.rd (p : P) (b : Nat) : Bytes := (p.bufs[b]?).getD []

/-- What `Len` and `Get` show. -/
def P.contents (p : P) : List Bytes := p.items.map p.rd

/-- What a program does. -/
inductive Op where
  | make (v : Bytes)
  | write (b : Nat) (v : Bytes)
  | append (bs : List Nat)
  | get (i : Nat)
  | set (i b : Nat)
  | setAll (bs : List Nat)
  | slice
  | sync
  deriving DecidableEq, Repr

/-- One operation. -/
def step (p : P) : Op → Res P
  -- `make([]byte, …)` by the program
  | .make v => .ok { p with bufs := p.bufs ++ [v], mine := p.bufs.length :: p.mine }
  -- `copy(b, v)` by the program; it can only name buffers it knows
  | .write b v => .ok (if b ∈ p.mine then { p with bufs := p.bufs.set b v } else p)
  -- 817-833 `Append`
  | .append bs => .ok { p with items := p.items ++ bs, dirty := true }
  -- 836-841 `Get` (also `All` and `Range`, 909-934)
  | .get i =>
    match p.items[i]? with
    | none => .panic
    | some b => .ok { p with mine := b :: p.mine }
  -- 844-862 `Set`
  | .set i b =>
    if i < p.items.length then
      .ok { p with bufs := p.bufs ++ [p.rd b], items := p.items.set i p.bufs.length, dirty := true }
    else .panic
  -- 865-883 `SetAll`
  | .setAll bs =>
    .ok { p with bufs := p.bufs ++ bs.map p.rd, items := List.range' p.bufs.length bs.length, dirty := true }
  -- 936-944 `Slice`
  | .slice =>
    .ok { p with bufs := p.bufs ++ p.items.map p.rd, mine := List.range' p.bufs.length p.items.length ++ p.mine }
  -- `SyncToSegment`; for which lists `Marshal` calls it is C18's
  | .sync => .ok (if p.dirty then { p with msg := p.contents, dirty := false } else p)

/-- A history. -/
def run : List Op → P → Res P
  | [], p => .ok p
  | o :: os, p => do
    let p ← step p o
    run os p

/-- A list as it is when it was just read from a message (getters.go 188-231: the items are copied). -/
def start (vs : List Bytes) : P := ⟨vs, List.range' 0 vs.length, false, vs, []⟩

end Claw.BytesList
