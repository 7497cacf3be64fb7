import Verif.Model.Bytes

/-!
# Go strings

Strings of the RPC packages are byte lists.  The functions below model the parts of the Go
standard library `strings` package that `/repo/rpc` calls; they are part of the trusted base
(the standard library is not in `/repo`).
-/

namespace Claw

/-- A Go string: its bytes. -/
abbrev Str := List UInt8

/-- A string literal of the Go source (all literals used are ASCII). -/
def lit (s : String) : Str := s.toList.map fun c => c.toNat.toUInt8

namespace Str

/-- `strings.HasPrefix(s, p)`. -/
def hasPrefix (p s : Str) : Bool := p.isPrefixOf s

/-- `strings.Index(s, sub)`: the first position at which `sub` occurs; `none` is Go's -1. -/
def index (sub : Str) : Str → Option Nat
  | [] => if sub.isPrefixOf [] then some 0 else none
  | c :: s => if sub.isPrefixOf (c :: s) then some 0 else (index sub s).map (· + 1)

/-- `strings.Contains(s, sub)`. -/
def contains (s sub : Str) : Bool := (index sub s).isSome

/-- One byte of `strings.ToLower` on ASCII text.  Bytes from 0x80 up are left alone:
Go lower-cases non-ASCII letters too, which this model leaves out. -/
def lowerByte (c : UInt8) : UInt8 := if 65 ≤ c ∧ c ≤ 90 then c + 32 else c

/-- `strings.ToLower` on ASCII text. -/
def lower (s : Str) : Str := s.map lowerByte

/-- The separator used by every method path of the RPC packages. -/
def slash : UInt8 := 47

/-- `strings.Split(s, "/")`. -/
def splitSlash : Str → List Str
  | [] => [[]]
  | c :: s =>
    match splitSlash s with
    | [] => [[c]]
    | p :: ps => if c = slash then [] :: p :: ps else (c :: p) :: ps

end Str

/-- A Go `map[κ]α`, observed through lookups. -/
abbrev Dict (κ α : Type) := κ → Option α

namespace Dict

variable {κ α : Type} [DecidableEq κ]

/-- `make(map[κ]α)`. -/
def empty : Dict κ α := fun _ => none

/-- `m[k] = v`. -/
def set (m : Dict κ α) (k : κ) (v : α) : Dict κ α := fun x => if x = k then some v else m x

/-- `delete(m, k)`. -/
def del (m : Dict κ α) (k : κ) : Dict κ α := fun x => if x = k then none else m x

end Dict

end Claw
