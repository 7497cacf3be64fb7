import Verif.Model.Struct
import Verif.Model.Pack

/-!
# Reading messages from a connection

Models `UnmarshalReader` (/repo/clawc/languages/go/segment/struct.go:452-491) and the two `readPackedMsg`
(/repo/rpc/client/client.go:618-646, /repo/rpc/server/conn.go:176-203) on a transport that delivers its bytes in pieces of any
length and then ends. `make` of more than `maxAlloc` bytes panics. Besides what is read the model counts the bytes asked of `make` for
the message (not the fixed 8 or 16 bytes of the header), the pooled buffer of `Unpack` aside.
-/

namespace Claw.Frame

open Claw

/-- The errors the readers return, as far as callers can tell them apart with `errors.Is(err, io.EOF)`. -/
inductive RErr where
  /-- `io.EOF`, perhaps wrapped -/
  | eof
  /-- `io.ErrUnexpectedEOF`, perhaps wrapped -/
  | unexpectedEof
  /-- not a struct, struct.go:463 -/
  | badType
  /-- an error of `Unpack` -/
  | unpack
  /-- an error of `Unmarshal` -/
  | unmarshal
  deriving DecidableEq, Repr

/-- `io.ReadFull` for `n` more bytes when `got` have been read: each `Read` returns what is left of the next piece, as far as
there is room. (`io.ReadAtLeast` stops at once when nothing is missing.) Result: error, the bytes read, the pieces left. -/
def fill : List Bytes → Nat → Bytes → Option RErr × Bytes × List Bytes
  | cs, 0, got => (none, got, cs)
  | [], _ + 1, got => (some (if got = [] then .eof else .unexpectedEof), got, [])
  | c :: cs, n + 1, got =>
    if c.length ≤ n + 1 then fill cs (n + 1 - c.length) (got ++ c)
    else (none, got ++ c.take (n + 1), c.drop (n + 1) :: cs)

/-- What a read leaves behind. -/
structure Out where
  err : Option RErr
  /-- the struct afterwards -/
  st : St
  /-- what the transport still holds -/
  rest : List Bytes
  /-- bytes asked of `make` for the message -/
  alloc : Nat
  deriving DecidableEq, Repr

/-- struct.go:452-491 `UnmarshalReader`. -/
def unmarshalReader (maxAlloc : Nat) (s : St) (cs : List Bytes) : Res Out :=
  let (err, header, cs) := fill cs HeaderSize []
  match err with
  | some e => .ok ⟨some e, s, cs, 0⟩
  | none =>
    match decodeHeader header with
    | none => .panic
    | some (_, fieldType, totalSize) =>
      if fieldType ≠ FTStruct then .ok ⟨some .badType, s, cs, 0⟩
      else
        let reuse := decide (totalSize ≤ s.seg.cap)
        if !reuse && decide (maxAlloc < totalSize) then .panic
        else
          let all := s.seg.data ++ s.seg.spare
          let g : Seg := if reuse then ⟨all.take totalSize, all.drop totalSize⟩ else ⟨zeros totalSize, []⟩
          let alloc := if reuse then 0 else totalSize
          let g : Seg := { g with data := goCopy g.data 0 header }
          if HeaderSize < totalSize then
            let (err, body, cs) := fill cs (totalSize - HeaderSize) []
            let g : Seg := { g with data := goCopy g.data HeaderSize body }
            match err with
            | some e => .ok ⟨some e, { s with seg := g }, cs, alloc⟩
            | none => .ok ⟨none, { s with seg := g, parsed := false }, cs, alloc⟩
          else .ok ⟨none, { s with seg := g, parsed := false }, cs, alloc⟩

/-- The packed bytes of one message, client.go:619-632, conn.go:177-190: error, header and data, what is left, bytes asked of
`make`. -/
def readPack (maxAlloc : Nat) (cs : List Bytes) : Res (Option RErr × Bytes × List Bytes × Nat) :=
  let (err, header, cs) := fill cs 16 []
  match err with
  | some e => .ok (some e, [], cs, 0)
  | none =>
    let size := Pack.addInt 16 (Pack.toInt (getLE ((header.drop 8).take 8)))
    if size < 0 ∨ (maxAlloc : Int) < size then .panic
    else if size < 16 then .panic
    else
      let (err, body, cs) := fill cs (size.toNat - 16) []
      .ok (err, header ++ body, cs, size.toNat)

/-- client.go:618-646 `readPackedMsg`: the unpacked bytes are copied into the message. -/
def clientReadPacked (maxAlloc : Nat) (pool : Bytes) (s : St) (cs : List Bytes) : Res Out := do
  let (err, packed, cs, alloc) ← readPack maxAlloc cs
  match err with
  | some e => return ⟨some e, s, cs, alloc⟩
  | none =>
    match ← Pack.unpack maxAlloc pool packed with
    | none => return ⟨some .unpack, s, cs, alloc⟩
    | some data =>
      let out ← unmarshalReader maxAlloc s [data]
      return { out with rest := cs, alloc := alloc + out.alloc }

/-- conn.go:176-203 `readPackedMsg`: the message is a view of the unpacked bytes; here their value at the
time of the read. -/
def serverReadPacked (maxAlloc : Nat) (pool : Bytes) (s : St) (cs : List Bytes) : Res Out := do
  let (err, packed, cs, alloc) ← readPack maxAlloc cs
  match err with
  | some e => return ⟨some e, s, cs, alloc⟩
  | none =>
    match ← Pack.unpack maxAlloc pool packed with
    | none => return ⟨some .unpack, s, cs, alloc⟩
    | some data =>
      match s.unmarshal data [] with
      | none => return ⟨some .unmarshal, s, cs, alloc⟩
      | some s => return ⟨none, s, cs, alloc⟩

/-- How an end reads: plain, or packed as the client or the server does (client.go:575-597, conn.go:142-149). The message is always
new (client.go:572, conn.go:136). -/
inductive Mode where
  | plain
  | packedClient
  | packedServer
  deriving DecidableEq, Repr

def Mode.read (md : Mode) (maxAlloc : Nat) (pool : Bytes) (m : Nat) (cs : List Bytes) : Res Out := do
  let s ← St.new m
  match md with
  | .plain => unmarshalReader maxAlloc s cs
  | .packedClient => clientReadPacked maxAlloc pool s cs
  | .packedServer => serverReadPacked maxAlloc pool s cs

/-- What an end writes for a message (client.go:777-804, conn.go:613-641): `none` if `Pack` fails. `pool` is what the pooled buffer
holds. `Bytes` of the nil buffer panics (pack.go:43). -/
def Mode.write (md : Mode) (pool : Bytes) (msg : Bytes) : Res (Option Bytes) :=
  match md with
  | .plain => .ok (some msg)
  | _ => do
    match ← Pack.pack pool msg with
    | .buf b => return some b
    | .nil => .panic
    | .err => return none

/-- The read loop up to the first error, reading at most `n` messages (client.go:553-597, conn.go:126-158): the messages, the error
if there was one, and what the transport still holds. `pools` is what the pooled buffer holds at each turn. -/
def readAll (md : Mode) (maxAlloc : Nat) (m : Nat) : List Bytes → List Bytes → Res (List St × Option RErr × List Bytes)
  | [], cs => .ok ([], none, cs)
  | pool :: pools, cs => do
    let out ← md.read maxAlloc pool m cs
    match out.err with
    | some e => return ([], some e, out.rest)
    | none =>
      let (ms, err, cs) ← readAll md maxAlloc m pools out.rest
      return (out.st :: ms, err, cs)

/-- Messages written one after the other. -/
def writeAll (md : Mode) : List (Bytes × Bytes) → Res (Option Bytes)
  | [] => .ok (some [])
  | (pool, msg) :: ms => do
    match ← md.write pool msg, ← writeAll md ms with
    | some b, some bs => return some (b ++ bs)
    | _, _ => return none

end Claw.Frame
