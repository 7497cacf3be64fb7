/-!
# Byte strings, little-endian integers and Go's `copy`

Shared vocabulary of the model. A Go `[]byte` is a `List UInt8`.
-/

namespace Claw

abbrev Bytes := List UInt8

/-- `binary.LittleEndian.PutUint{16,32,64}` for `n` = 2, 4, 8 bytes (Go standard
library, used throughout `/repo/clawc/languages/go/segment`): the `n` low-order bytes
of `v`, least significant first. -/
def putLE : Nat → Nat → Bytes
  | 0, _ => []
  | n + 1, v => UInt8.ofNat v :: putLE n (v / 256)

/-- `binary.LittleEndian.Uint{16,32,64}`: the number whose base-256 digits, least
significant first, are the given bytes. -/
def getLE : Bytes → Nat
  | [] => 0
  | b :: bs => b.toNat + 256 * getLE bs

/-- Go's `copy(dst[off:], src)`: overwrite `dst` from `off` with as much of `src` as
fits; the length of `dst` never changes. -/
def goCopy (dst : Bytes) (off : Nat) (src : Bytes) : Bytes :=
  dst.take off ++ src.take (dst.length - off) ++ dst.drop (off + (src.take (dst.length - off)).length)

/-- Go's `data[a:b]` for in-range `a ≤ b ≤ len(data)`. -/
def slice (data : Bytes) (a b : Nat) : Bytes := (data.take b).drop a

/-- `make([]byte, n)`. -/
def zeros (n : Nat) : Bytes := List.replicate n 0

end Claw
