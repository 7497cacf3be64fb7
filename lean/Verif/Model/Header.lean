import Verif.Model.Bytes

/-!
# Field headers

Models `/repo/clawc/languages/go/segment/header.go` and the Any header of
`/repo/clawc/languages/go/segment/any.go`.

Go parameters of type `uint16`, `field.Type` (= `uint8`), `uint32`, `uint64` are `Nat`s
here; statements restrict them to the range of the Go type. A Go `panic` is `none`.
-/

namespace Claw

/-- header.go:15 `HeaderSize`. -/
abbrev HeaderSize : Nat := 8

/-- header.go:16 `MaxFinal40`. -/
def MaxFinal40 : Nat := 2 ^ 40 - 1

/-- The byte-level body shared by `EncodeHeader` (header.go:37-47) and
`EncodeHeaderFinal40` (header.go:81-91): clear bytes 3..7, read the 8 bytes as a
little-endian `uint64`, or in `final40 << 24`, write the 8 bytes back. -/
def storeFinal40 (buf : Bytes) (final40 : Nat) : Bytes :=
  let b := ((((buf.set 3 0).set 4 0).set 5 0).set 6 0).set 7 0
  let u := getLE (b.take 8)
  let u := u ||| ((final40 <<< 24) % 2 ^ 64)
  goCopy b 0 (putLE 8 u)

/-- header.go:22-48 `EncodeHeader`. -/
def encodeHeaderAt (buf : Bytes) (fieldNum fieldType final40 : Nat) : Option Bytes :=
  if buf.length < HeaderSize then none
  else if final40 > MaxFinal40 then none
  else
    let b := goCopy buf 0 (putLE 2 fieldNum)
    let b := b.set 2 (UInt8.ofNat fieldType)
    some (storeFinal40 b final40)

/-- header.go:51-63 `DecodeHeader`; the result is (field number, field type, final40). -/
def decodeHeader (buf : Bytes) : Option (Nat × Nat × Nat) :=
  if buf.length < HeaderSize then none
  else
    let fieldNum := getLE (buf.take 2)
    let fieldType := (buf.drop 2).headD 0 |>.toNat
    let u := getLE (buf.take 8)
    some (fieldNum, fieldType, u >>> 24)

/-- header.go:66-68 `EncodeHeaderFieldNum` on a buffer of at least two bytes. -/
def encodeHeaderFieldNum (buf : Bytes) (fieldNum : Nat) : Bytes :=
  goCopy buf 0 (putLE 2 fieldNum)

/-- header.go:71-73 `EncodeHeaderFieldType`. -/
def encodeHeaderFieldType (buf : Bytes) (fieldType : Nat) : Bytes :=
  buf.set 2 (UInt8.ofNat fieldType)

/-- header.go:76-92 `EncodeHeaderFinal40`. -/
def encodeHeaderFinal40 (buf : Bytes) (final40 : Nat) : Option Bytes :=
  if final40 > MaxFinal40 then none
  else if buf.length < 8 then none
  else some (storeFinal40 buf final40)

/-- header.go:95-98 `DecodeHeaderFinal40`. -/
def decodeHeaderFinal40 (buf : Bytes) : Option Nat :=
  if buf.length < 8 then none else some (getLE (buf.take 8) >>> 24)

/-- header.go:101-105 `MakeHeader`; also the pattern `hdr := make([]byte, HeaderSize);
EncodeHeader(hdr, …)` of scalar.go. -/
def makeHeader (fieldNum fieldType final40 : Nat) : Option Bytes :=
  encodeHeaderAt (zeros HeaderSize) fieldNum fieldType final40

/-- header.go:126 `MaxMapSize`. -/
def MaxMapSize : Nat := 2 ^ 24 - 1

/-- field.go:45 `FTMap`. -/
abbrev FTMap : Nat := 55
/-- field.go:27 `FTAny`. -/
abbrev FTAny : Nat := 15

/-- header.go:131-142 `EncodeMapHeader`. -/
def encodeMapHeaderAt (buf : Bytes) (fieldNum keyType valueType totalSize : Nat) :
    Option Bytes :=
  if totalSize > MaxMapSize then none
  else
    let f := keyType <<< 0
    let f := f ||| valueType <<< 8
    let f := f ||| totalSize <<< 16
    encodeHeaderAt buf fieldNum FTMap f

/-- header.go:146-154 `DecodeMapHeader`: (key type, value type, total size). -/
def decodeMapHeader (buf : Bytes) : Option (Nat × Nat × Nat) :=
  match decodeHeader buf with
  | none => none
  | some (_, _, final40) =>
    some ((final40 >>> 0) &&& 0xFF, (final40 >>> 8) &&& 0xFF, (final40 >>> 16) &&& 0xFFFFFF)

/-- any.go:61-71 `EncodeAnyHeader`. -/
def encodeAnyHeaderAt (buf : Bytes) (fieldNum realType dataSize : Nat) : Option Bytes :=
  if buf.length < HeaderSize then none
  else
    let f := realType <<< 0
    let f := f ||| dataSize <<< 8
    encodeHeaderAt buf fieldNum FTAny f

/-- any.go:75-84 `DecodeAnyHeader`: (real type, data size). -/
def decodeAnyHeader (buf : Bytes) : Option (Nat × Nat) :=
  match decodeHeader buf with
  | none => none
  | some (_, _, final40) => some ((final40 >>> 0) &&& 0xFF, (final40 >>> 8) &&& 0xFFFFFFFF)

end Claw
