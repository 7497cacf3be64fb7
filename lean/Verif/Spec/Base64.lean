import Verif.Model.GoStr

/-!
# Base64 and hexadecimal, as one reads them (RFC 4648)
-/

namespace Claw.Json

/-- The alphabet of RFC 4648, table 1. -/
def alphabet : Bytes := lit "ABCDEFGHIJKLMNOPQRSTUVWXYZabcdefghijklmnopqrstuvwxyz0123456789+/"

/-- The number of a letter of the alphabet. -/
def digit64 (c : UInt8) : Option Nat := alphabet.idxOf? c

/-- The number that digits in base `b` stand for. -/
def number (b : Nat) (ds : List Nat) : Nat := ds.foldl (fun n d => n * b + d) 0

/-- Reading base64: four letters are the digits of a number in base 64, whose digits in base 256 are three bytes; the last
four may have one or two `=` in the place of digits, and stand for two bytes or one; bits that are left over are 0. -/
def decode64 : Bytes → Option Bytes
  | [] => some []
  | a :: b :: c :: d :: r =>
    if d = 0x3D ∧ r = [] then
      if c = 0x3D then do
        let n := number 64 [← digit64 a, ← digit64 b]
        if n % 16 = 0 then some [(n / 16).toUInt8] else none
      else do
        let n := number 64 [← digit64 a, ← digit64 b, ← digit64 c]
        if n % 4 = 0 then some [(n / 4 / 256).toUInt8, (n / 4 % 256).toUInt8] else none
    else do
      let n := number 64 [← digit64 a, ← digit64 b, ← digit64 c, ← digit64 d]
      let rest ← decode64 r
      some ((n / 65536).toUInt8 :: (n / 256 % 256).toUInt8 :: (n % 256).toUInt8 :: rest)
  | _ => none

/-- The number of a hexadecimal digit. -/
def digit16 (c : UInt8) : Option Nat := (lit "0123456789abcdef").idxOf? c

/-- Reading hexadecimal: two digits to a byte. -/
def decode16 : Bytes → Option Bytes
  | [] => some []
  | a :: b :: r => do
    let n := number 16 [← digit16 a, ← digit16 b]
    let rest ← decode16 r
    some (n.toUInt8 :: rest)
  | _ => none

end Claw.Json
