import Verif.Model.GenMap
import Verif.Spec.Idl

/-!
# What Go asks of the code for a map field

From the Go specification: type arguments satisfy their constraints, names are declared as what they are used for, a value is
assignable if its type is identical (or the variable is an `any`), and a variable that is declared in a function is used.

A name with a dot is one of an imported package. What the package has in it is not looked at.
-/

namespace Claw.GenMap

open Claw.Idl (FT MapInfo MapTy)

/-- What is in scope: the structs and enums of the schema and the imported packages. -/
structure Env where
  structs : List Str
  enums : List Str
  imports : List Str

def Env.Imported (e : Env) (text : Str) : Prop := ∃ p q, text = p ++ 46 :: q ∧ p ∈ e.imports

/-- The basic types of `MapKey` and `MapValue`. -/
def basics : List Str :=
  ["string", "bool", "int8", "int16", "int32", "int64", "uint8", "uint16", "uint32", "uint64", "float32", "float64"].map lit

/-- It is a type. A struct `X` makes the types `X` and `XRaw`, an enum `X` makes `X`. -/
def Env.IsType (e : Env) : Ty → Prop
  | .basic n => n ∈ basics
  | .bytes | .any | .segStruct | .anyValue => True
  | .named n => n ∈ e.structs ∨ (∃ s ∈ e.structs, n = s ++ lit "Raw") ∨ n ∈ e.enums ∨ e.Imported n
  | .ptr t | .slice t => e.IsType t
  | .map k v => (∃ n ∈ basics, k = .basic n) ∧ e.IsType v

def Env.Meets (e : Env) : Need → Prop
  | .key t => ∃ n ∈ basics, t = .basic n
  | .value t => t = .bytes ∨ (∃ n ∈ basics, t = .basic n) ∨ ∃ n ∈ e.enums, t = .named n
  | .type t => e.IsType t
  | .mapping x => (∃ s ∈ e.structs, x = lit "XXXMapping" ++ s) ∨ e.Imported x
  | .wraps x t => (∃ s ∈ e.structs, x = lit "XXXNew" ++ s ++ lit "From" ∧ t = .named s) ∨ e.Imported x
  | .fromRaw x t => (∃ s ∈ e.structs, x = lit "New" ++ s ++ lit "FromRaw" ∧ t = .named (s ++ lit "Raw")) ∨ e.Imported x
  | .news x => (∃ s ∈ e.structs, x = lit "New" ++ s) ∨ e.Imported x
  | .struct t => ∃ n, t = .named n ∧ (n ∈ e.structs ∨ e.Imported n)
  | .assign s d => s = d ∨ d = .any
  | .uses n used => n ∈ used

/-- The code for the field compiles in the package. -/
def Env.Compiles (e : Env) (m : MapInfo) : Prop := ∀ n ∈ needs m, e.Meets n

/-- The map types that can be used, as they are written. -/
def Works (structs : List Str) : MapTy → Prop
  | .scalar _ v => v ≠ .bytes
  | .anys _ => True
  | .named _ n => n ∈ structs
  | .map _ _ => False

/-- Names of the schema and of its imports as Go and the compiler want them; no import is called `XXXMapping…`. -/
structure Env.Sane (e : Env) : Prop where
  structs : [] ∉ e.structs
  imports : ∀ p ∈ e.imports, ¬ lit "XXXMapping" <+: p

/-- The Go type a Go programmer expects for a value. -/
def expected : FT → Option Str
  | .bool => some (lit "bool")
  | .int8 => some (lit "int8")
  | .int16 => some (lit "int16")
  | .int32 => some (lit "int32")
  | .int64 => some (lit "int64")
  | .uint8 => some (lit "uint8")
  | .uint16 => some (lit "uint16")
  | .uint32 => some (lit "uint32")
  | .uint64 => some (lit "uint64")
  | .float32 => some (lit "float32")
  | .float64 => some (lit "float64")
  | .string => some (lit "string")
  | _ => none

end Claw.GenMap
