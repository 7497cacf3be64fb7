import Verif.Model.GoStr

/-!
# Payload compression

`/repo/rpc/compress/compress.go` and its use on both ends of a connection.  The compressors
themselves (gzip, snappy, zstd) are third-party code: they appear as arbitrary functions, with
an explicit law where a statement needs one.
-/

namespace Claw.Compress

open Claw

/-- compress.go:13-22.  `none` is an error. -/
structure Compressor where
  compress : Bytes → Option Bytes
  decompress : Bytes → Option Bytes
  type : UInt8

/-- compress.go:25-28. -/
abbrev Registry := Dict UInt8 Compressor

/-- msgs.go:65. -/
def cmpNone : UInt8 := 0

/-- compress.go:32-36. -/
def register (r : Registry) (c : Compressor) : Registry := Dict.set r c.type c

/-- compress.go:48-60. -/
def compress (r : Registry) (t : UInt8) (data : Bytes) : Option Bytes :=
  if t = cmpNone then some data
  else if data.length = 0 then some data
  else
    match r t with
    | none => none
    | some c => c.compress data

/-- compress.go:65-77. -/
def decompress (r : Registry) (t : UInt8) (data : Bytes) : Option Bytes :=
  if t = cmpNone then some data
  else if data.length = 0 then some data
  else
    match r t with
    | none => none
    | some c => c.decompress data

/-- A Payload message on the wire, without its ids. -/
structure Frame where
  payload : Bytes
  endStream : Bool
  compression : UInt8
  deriving DecidableEq, Repr

/-- server/conn.go:677-704 and client/client.go:906-933 up to handing the message to the
transport; `none` is an error returned to the caller.  `limit` 0 means no limit. -/
def sendPayload (r : Registry) (limit : Nat) (alg : UInt8) (payload : Bytes) (endStream : Bool) :
    Option Frame :=
  if limit > 0 ∧ payload.length > limit then none
  else if alg ≠ cmpNone ∧ payload.length > 0 then
    match compress r alg payload with
    | none => none
    | some z => some ⟨z, endStream, alg⟩
  else some ⟨payload, endStream, alg⟩

/-- server/conn.go:543-578 and client/client.go:711-745 for a known session: what is put into
the session's channel, `none` when the message is dropped. -/
def handlePayload (r : Registry) (limit : Nat) (f : Frame) : Option (Bytes × Bool) :=
  if f.compression ≠ cmpNone ∧ f.payload.length > 0 then
    match decompress r f.compression f.payload with
    | none => none
    | some d => if limit > 0 ∧ d.length > limit then none else some (d, f.endStream)
  else if limit > 0 ∧ f.payload.length > limit then none
  else some (f.payload, f.endStream)

end Claw.Compress
