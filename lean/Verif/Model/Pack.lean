import Verif.Model.Bytes
import Verif.Model.Res

/-!
# Packing

Models `/repo/languages/go/pack/pack.go`. Buffers come from a pool with arbitrary stale contents:
`pool` is the backing array of the pooled buffer, up to its capacity.
-/

namespace Claw.Pack

/-- `dst[w] = b`, panics when out of range. -/
def put (dst : Bytes) (w : Nat) (b : UInt8) : Res Bytes :=
  if w < dst.length then .ok (dst.set w b) else .panic

/-- `byte(word >> (i*8))`. -/
def wordByte (word i : Nat) : UInt8 := UInt8.ofNat (word >>> (i * 8))

/-- `tag & (1<<i) != 0`. -/
def tagBit (tag : UInt8) (i : Nat) : Bool := (tag &&& (1 <<< UInt8.ofNat i)) != 0

/-- pack.go:296-304 `computeTag`, the loop from bit `i` with `k` turns left. -/
def computeTagFrom (word : Nat) : Nat → Nat → UInt8 → UInt8
  | 0, _, tag => tag
  | k + 1, i, tag =>
    computeTagFrom word k (i + 1) (if wordByte word i != 0 then tag ||| (1 <<< UInt8.ofNat i) else tag)

def computeTag (word : Nat) : UInt8 := computeTagFrom word 8 0 0

/-- pack.go:308-317 `packWord`, the loop from byte `i` with `k` turns left; `w` is the write position. -/
def packWord (word : Nat) (tag : UInt8) : Nat → Nat → Bytes → Nat → Res (Bytes × Nat)
  | 0, _, dst, w => .ok (dst, w)
  | k + 1, i, dst, w =>
    if tagBit tag i then do
      let dst ← put dst w (wordByte word i)
      packWord word tag k (i + 1) dst (w + 1)
    else packWord word tag k (i + 1) dst w

/-- pack.go:336-344 `countZerosInWord`. -/
def countZerosFrom (word : Nat) : Nat → Nat → Nat
  | 0, _ => 0
  | k + 1, i => (if wordByte word i == 0 then 1 else 0) + countZerosFrom word k (i + 1)

def countZerosInWord (word : Nat) : Nat := countZerosFrom word 8 0

/-- pack.go:152-160: count up to `k` further zero words; the count and the rest of `src`. -/
def zeroRun : Nat → Bytes → Nat × Bytes
  | 0, src => (0, src)
  | k + 1, src =>
    if 0 < src.length ∧ getLE (src.take 8) = 0 then
      let r := zeroRun k (src.drop 8)
      (r.1 + 1, r.2)
    else (0, src)

/-- `binary.LittleEndian.PutUint64(dst[w:], word)`: panics unless 8 bytes fit. -/
def putWord (dst : Bytes) (w : Nat) (word : Nat) : Res Bytes :=
  if w + 8 ≤ dst.length then .ok (goCopy dst w (putLE 8 word)) else .panic

/-- pack.go:169-180: copy up to `k` further words with fewer than two zero bytes. -/
def litRun : Nat → Bytes → Bytes → Nat → Res (Nat × Bytes × Bytes × Nat)
  | 0, src, dst, w => .ok (0, src, dst, w)
  | k + 1, src, dst, w =>
    if 0 < src.length then
      let word := getLE (src.take 8)
      if countZerosInWord word ≥ 2 then .ok (0, src, dst, w)
      else do
        let dst ← putWord dst w word
        let (c, src, dst, w) ← litRun k (src.drop 8) dst (w + 8)
        return (c + 1, src, dst, w)
    else .ok (0, src, dst, w)

/-- pack.go:133-186 `packInto` on the source that remains. Every turn consumes 8 bytes, so the length
of the source is enough fuel. -/
def packLoop : Nat → Bytes → Bytes → Nat → Res (Bytes × Nat)
  | 0, _, dst, w => .ok (dst, w)
  | fuel + 1, src, dst, w =>
    if 0 < src.length then do
      let word := getLE (src.take 8)
      let tag := computeTag word
      let dst ← put dst w tag
      let w := w + 1
      let (dst, w) ← packWord word tag 8 0 dst w
      let src := src.drop 8
      if tag = 0x00 then
        let (count, src) := zeroRun 255 src
        let dst ← put dst w (UInt8.ofNat count)
        packLoop fuel src dst (w + 1)
      else if tag = 0xFF then
        let countPos := w
        let (count, src, dst, w) ← litRun 255 src dst (w + 1)
        let dst ← put dst countPos (UInt8.ofNat count)
        packLoop fuel src dst w
      else packLoop fuel src dst w
    else .ok (dst, w)

/-- pack.go:78-88 `maxPackedSize`. -/
def maxPackedSize (unpackedLen : Nat) : Nat :=
  if unpackedLen = 0 then 0
  else unpackedLen + unpackedLen / 8 + (unpackedLen / 8 + 255) / 256

/-- pack.go:107-111 and 211-215: a buffer of the needed length. -/
def grow (pool : Bytes) (needed : Nat) : Bytes :=
  if pool.length < needed then zeros needed else pool.take needed

/-- The result of `Pack`: an error, the nil buffer, or a buffer. -/
inductive Packed where
  | err
  | nil
  | buf (b : Bytes)
  deriving DecidableEq, Repr

/-- pack.go:94-129 `Pack`. -/
def pack (pool src : Bytes) : Res Packed :=
  if src.length % 8 ≠ 0 then .ok .err
  else if src.length = 0 then .ok .nil
  else do
    let data := grow pool (16 + maxPackedSize src.length)
    let (body, packedLen) ← packLoop src.length src (data.drop 16) 0
    let data := data.take 16 ++ body
    let data := goCopy data 0 (putLE 8 src.length)
    let data := goCopy data 8 (putLE 8 packedLen)
    return .buf (data.take (16 + packedLen))

/-- pack.go:322-333 `unpackWord`, from byte `i` with `k` turns left: write to `dst[w+i]`, reading
from `src`; returns the rest of `src`. -/
def unpackWord (tag : UInt8) : Nat → Nat → Bytes → Nat → Bytes → Res (Bytes × Bytes)
  | 0, _, dst, _, src => .ok (dst, src)
  | k + 1, i, dst, w, src =>
    if tagBit tag i then
      match src with
      | [] => .panic
      | b :: src => do
        let dst ← put dst (w + i) b
        unpackWord tag k (i + 1) dst w src
    else do
      let dst ← put dst (w + i) 0
      unpackWord tag k (i + 1) dst w src

/-- pack.go:260-262: write `n` zero bytes at `w`. -/
def putZeros : Nat → Bytes → Nat → Res Bytes
  | 0, dst, _ => .ok dst
  | n + 1, dst, w => do
    let dst ← put dst w 0
    putZeros n dst (w + 1)

/-- pack.go:234-293 `unpackInto` on the source that remains; `none` is an error. Every turn reads at
least the tag, so the length of the source is enough fuel. -/
def unpackLoop : Nat → Bytes → Bytes → Nat → Res (Option (Bytes × Nat))
  | 0, _, dst, w => .ok (some (dst, w))
  | fuel + 1, src, dst, w =>
    match src with
    | [] => .ok (some (dst, w))
    | tag :: src =>
      if w + 8 > dst.length then .ok none
      else do
        let (dst, src) ← unpackWord tag 8 0 dst w src
        let w := w + 8
        if tag = 0x00 then
          match src with
          | [] => return none
          | c :: src =>
            let zeroBytes := c.toNat * 8
            if w + zeroBytes > dst.length then return none
            else
              let dst ← putZeros zeroBytes dst w
              unpackLoop fuel src dst (w + zeroBytes)
        else if tag = 0xFF then
          match src with
          | [] => return none
          | c :: src =>
            let literalBytes := c.toNat * 8
            if literalBytes > src.length then return none
            else if w + literalBytes > dst.length then return none
            else unpackLoop fuel (src.drop literalBytes) (goCopy dst w (src.take literalBytes)) (w + literalBytes)
        else unpackLoop fuel src dst w

/-- `int(x)` of a uint64. -/
def toInt (u : Nat) : Int := if u < 2 ^ 63 then (u : Int) else (u : Int) - 2 ^ 64

/-- 64-bit addition. -/
def addInt (a b : Int) : Int := (a + b + 2 ^ 63) % 2 ^ 64 - 2 ^ 63

/-- pack.go:192-231 `Unpack`; `none` is an error. `make` panics above `maxAlloc` bytes. Slicing with
a negative bound or with bounds out of order panics. -/
def unpack (maxAlloc : Nat) (pool packed : Bytes) : Res (Option Bytes) :=
  if packed.length < 16 then .ok none
  else
    let unpackedSize := toInt (getLE (packed.take 8))
    let packedSize := toInt (getLE ((packed.drop 8).take 8))
    let e := addInt 16 packedSize
    if (packed.length : Int) < e then .ok none
    else if unpackedSize.tmod 8 ≠ 0 then .ok none
    else if unpackedSize < 0 then .panic
    else if pool.length < unpackedSize.toNat ∧ maxAlloc < unpackedSize.toNat then .panic
    else if e < 16 then .panic
    else do
      let dst := grow pool unpackedSize.toNat
      match ← unpackLoop packed.length (slice packed 16 e.toNat) dst 0 with
      | none => return none
      | some (dst, n) => if n ≠ unpackedSize.toNat then return none else return some dst

/-- pack.go:348-353 and 357-362. -/
def unpackedSize (packed : Bytes) : Int := if packed.length < 16 then 0 else toInt (getLE (packed.take 8))
def packedSize (packed : Bytes) : Int :=
  if packed.length < 16 then 0 else toInt (getLE ((packed.drop 8).take 8))

end Claw.Pack
