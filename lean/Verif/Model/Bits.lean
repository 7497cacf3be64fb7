import Verif.Model.Bytes
import Verif.Model.Res

/-!
# Bit and byte utilities

`/repo/clawc/internal/bits/bits.go` and `/repo/clawc/internal/binary/binary.go`.  An unsigned Go
type of `w` bits is `BitVec w`; `w` is arbitrary in the bit utilities.  Go's shifts by at least the
width give 0, as those of `BitVec` do.
-/

namespace Claw.Bits

/-- bits.go:18-26 `SetValue`; `U(val)` cuts or extends. -/
def setValue {v w : Nat} (val : BitVec v) (store : BitVec w) (start stop : Nat) : Res (BitVec w) :=
  if start ≥ stop then .panic
  else .ok (store ||| (val.setWidth w <<< start))

/-- bits.go:34-36 `GetValue`. -/
def getValue {w : Nat} (v : Nat) (store bitMask : BitVec w) (start : Nat) : BitVec v :=
  ((store &&& bitMask) >>> start).setWidth v

/-- bits.go:39-58 `GetBit`: the position is checked against the width. -/
def getBit {w : Nat} (store : BitVec w) (pos : Nat) : Res Bool :=
  if pos > w - 1 then .panic
  else .ok (store &&& (1#w <<< pos) != 0#w)

/-- bits.go:62-87 `SetBit`. -/
def setBit {w : Nat} (store : BitVec w) (pos : Nat) (val : Bool) : Res (BitVec w) :=
  if pos > w - 1 then .panic
  else if val then .ok (store ||| (1#w <<< pos))
  else .ok (store &&& ~~~(1#w <<< pos))

/-- bits.go:90-93 `ClearBit`. -/
def clearBit {w : Nat} (store : BitVec w) (pos : Nat) : BitVec w := store &&& ~~~(1#w <<< pos)

/-- bits.go:96-100 `ClearBytes`, with `n` turns left. -/
def clearBytesLoop : Nat → Nat → Bytes → Res Bytes
  | 0, _, b => .ok b
  | n + 1, i, b => if i < b.length then clearBytesLoop n (i + 1) (b.set i 0) else .panic

def clearBytes (b : Bytes) (start stop : Nat) : Res Bytes := clearBytesLoop (stop - start) start b

/-- bits.go:111-117 and 163-169: the 64-bit mask. -/
def mask64 (start stop : Nat) : BitVec 64 :=
  let width := stop - start
  if width = 64 then BitVec.allOnes 64
  else ((1#64 <<< width) - 1#64) <<< start

/-- bits.go:103-121 `ClearBits`. -/
def clearBits {w : Nat} (store : BitVec w) (start stop : Nat) : BitVec w :=
  if start ≥ stop then store else store &&& ~~~((mask64 start stop).setWidth w)

/-- bits.go:133-173 `setBits` on a `uint` of 64 bits, as called from `Mask`. -/
def setBits (n : BitVec 64) (start stop : Nat) : Res (BitVec 64) :=
  if start ≥ stop then .panic
  else if stop > 64 then .panic
  else .ok (n ||| mask64 start stop)

/-- bits.go:127-129 `Mask`. -/
def mask (w start stop : Nat) : Res (BitVec w) :=
  match setBits 0 start stop with
  | .ok m => .ok (m.setWidth w)
  | .panic => .panic
  | .hang => .hang

end Claw.Bits

namespace Claw.Binary

/-- The integer types of `constraints.Integer` that have a case in `Get`. -/
inductive ITy where
  | i8 | i16 | i32 | i64 | u8 | u16 | u32 | u64
  deriving DecidableEq, Repr

def ITy.size : ITy → Nat
  | .i8 | .u8 => 1
  | .i16 | .u16 => 2
  | .i32 | .u32 => 4
  | .i64 | .u64 => 8

/-- Signed types. -/
def ITy.signed : ITy → Bool
  | .i8 | .i16 | .i32 | .i64 => true
  | .u8 | .u16 | .u32 | .u64 => false

/-- A value of the type as its bit pattern of `8 * size` bits: signed and unsigned conversions of
the same width do not change it. -/
abbrev ITy.Val (t : ITy) := BitVec (8 * t.size)

/-- `uint64(v)`: sign extension for signed types. -/
def toU64 (t : ITy) (v : t.Val) : BitVec 64 := if t.signed then v.signExtend 64 else v.setWidth 64

/-- binary.go:16-42 `Get`; reading behind the slice panics, an empty slice panics at once. -/
def get (t : ITy) (b : Bytes) : Res t.Val :=
  if b.length < t.size then .panic
  else .ok (BitVec.ofNat (8 * t.size) (getLE (b.take t.size)))

/-- `binary.LittleEndian.PutUintN` with `N = 8 * n`. -/
def putUint (n : Nat) (b : Bytes) (v : Nat) : Res Bytes :=
  if b.length < n then .panic else .ok (goCopy b 0 (putLE n v))

/-- binary.go:110-123 `Put`: only the unsigned types below 64 bits have a case, everything else is
written as 8 bytes. -/
def put (t : ITy) (b : Bytes) (v : t.Val) : Res Bytes :=
  match t with
  | .u8 => putUint 1 b v.toNat
  | .u16 => putUint 2 b v.toNat
  | .u32 => putUint 4 b v.toNat
  | t => putUint 8 b (toU64 t v).toNat

/-- binary.go:127-146 `PutBuffer`: what is written. Only the signed types have a case, so the buffer
for an unsigned one is nil. -/
def putBuffer (t : ITy) (v : t.Val) : Res Bytes :=
  match t with
  | .i8 => put .i8 (zeros 1) v
  | .i16 => put .i16 (zeros 2) v
  | .i32 => put .i32 (zeros 4) v
  | .i64 => put .i64 (zeros 8) v
  | .u8 => put .u8 [] v
  | .u16 => put .u16 [] v
  | .u32 => put .u32 [] v
  | .u64 => put .u64 [] v

/-- binary.go:150-187: `GetInt8` … `GetUint64`. -/
def getDirect (t : ITy) (b : Bytes) : Res t.Val := get t b

/-- binary.go:190-227: `PutInt8` … `PutUint64`. -/
def putDirect (t : ITy) (b : Bytes) (v : t.Val) : Res Bytes := putUint t.size b v.toNat

/-- binary.go:311-372: `PutBufferInt8` … `PutBufferUint64`. -/
def putBufferDirect (t : ITy) (v : t.Val) : Res Bytes := putUint t.size (zeros t.size) v.toNat

end Claw.Binary
