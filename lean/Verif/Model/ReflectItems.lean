import Verif.Model.Reflect

/-!
# Changing lists through reflection

`/repo/languages/go/reflect/internal/value/impl.go` 218-427: the methods of ListBools, ListNumbers, ListBytes, ListStrings and ListStructs.
A list is a Go struct with a slice in it, passed by value; the items are in an array that all its copies share.

Simplifications. The segment struct that is an item of a struct list is an item by value. Nil bytes are empty.
-/

namespace Claw.Refl

/-! ### Slices -/

/-- Arrays by number. -/
abbrev Heap (α : Type) := List (List α)

/-- A slice from the start of an array. -/
structure Slice where
  ptr : Nat
  len : Nat
  deriving DecidableEq, Repr

/-- The array of a slice, as long as the capacity. -/
def arr {α : Type} (h : Heap α) (s : Slice) : List α := h.getD s.ptr []

/-- The items of a slice. -/
def view {α : Type} (h : Heap α) (s : Slice) : List α := (arr h s).take s.len

/-- `items[i]`. -/
def getAt {α : Type} (h : Heap α) (s : Slice) (i : Nat) : Res α := if i < s.len then Res.ofOption (arr h s)[i]? else .panic

/-- `items[i] = x`. -/
def setAt {α : Type} (h : Heap α) (s : Slice) (i : Nat) (x : α) : Res (Heap α) :=
  if i < s.len then .ok (h.set s.ptr ((arr h s).set i x)) else .panic

/-- `append(items, x)`: into the array where it has room, else into a new one, with more room behind the items. -/
def append {α : Type} (room : List α) (h : Heap α) (s : Slice) (x : α) : Heap α × Slice :=
  if s.len < (arr h s).length then (h.set s.ptr ((arr h s).set s.len x), ⟨s.ptr, s.len + 1⟩)
  else (h ++ [view h s ++ x :: room], ⟨h.length, s.len + 1⟩)

/-! ### Lists -/

/-- The list types (impl.go 218, 250, 310, 343, 376); that of structs with the number of its struct type. -/
inductive Kind where
  | bools
  | nums (k : NTy)
  | bytes
  | strs
  | structs (m : Nat)
  deriving DecidableEq

@[reducible] def Kind.Item : Kind → Type
  | .bools => Bool
  | .nums k => k.Val
  | .bytes => Bytes
  | .strs => Bytes
  | .structs _ => LSt

/-- The Go type of the items of a number list. -/
def elem : NTy → STy
  | .i8 => .i8 | .i16 => .i16 | .i32 => .i32 | .i64 => .i64 | .u8 => .u8 | .u16 => .u16 | .u32 => .u32 | .u64 => .u64
  | .f32 => .f32 | .f64 => .f64

/-- The field types of these items (impl.go 257-290). -/
def elemFt : NTy → Nat
  | .i8 => FTInt8 | .i16 => FTInt16 | .i32 => FTInt32 | .i64 => FTInt64 | .u8 => FTUint8 | .u16 => FTUint16 | .u32 => FTUint32
  | .u64 => FTUint64 | .f32 => FTFloat32 | .f64 => FTFloat64

/-- `Type` (impl.go 227, 257-290, 321, 354, 397). -/
def Kind.type : Kind → Nat
  | .bools => FTListBools
  | .nums k => elemFt k
  | .bytes => FTListBytes
  | .strs => FTListStrings
  | .structs _ => FTListStructs

/-- `x.(N)`. -/
def assertNum : (k : NTy) → GoAny → Res k.Val
  | .i8, a => assertTy .i8 a
  | .i16, a => assertTy .i16 a
  | .i32, a => assertTy .i32 a
  | .i64, a => assertTy .i64 a
  | .u8, a => assertTy .u8 a
  | .u16, a => assertTy .u16 a
  | .u32, a => assertTy .u32 a
  | .u64, a => assertTy .u64 a
  | .f32, a => assertTy .f32 a
  | .f64, a => assertTy .f64 a

def ofNum (c : Conv) : (k : NTy) → k.Val → Value
  | .i8, v => ofScalar c .i8 v
  | .i16, v => ofScalar c .i16 v
  | .i32, v => ofScalar c .i32 v
  | .i64, v => ofScalar c .i64 v
  | .u8, v => ofScalar c .u8 v
  | .u16, v => ofScalar c .u16 v
  | .u32, v => ofScalar c .u32 v
  | .u64, v => ofScalar c .u64 v
  | .f32, v => ofScalar c .f32 v
  | .f64, v => ofScalar c .f64 v

/-- What stands for `fmt.Sprint`, for the conversions of floats and for the registered packages; `fuel` bounds the depth of structs that
are printed. -/
structure Env where
  c : Conv
  W : World
  sprint : GoAny → Bytes
  fuel : Nat

/-- The item that `Set` and `Append` take out of a value (impl.go 239, 300, 333, 366, 414-415). -/
def item (E : Env) : (k : Kind) → Value → Res k.Item
  | .bools, v => if v.ft = FTBool then .ok v.boolVal else .panic
  | .nums k, v => do
    let a ← v.any E.c
    assertNum k a
  | .bytes, v => if v.ft = FTBytes then .ok (v.bytesVal.getD []) else .panic
  | .strs, v => str E.c E.W E.sprint E.fuel v
  | .structs _, v =>
    match v.aStruct with
    | none => .panic
    | some r => .ok r.s

/-- The value that `Get` makes of an item (impl.go 235, 296, 329, 362, 405-411). -/
def ofItem (E : Env) : (k : Kind) → k.Item → Value
  | .bools, x => ofScalar E.c .bool x
  | .nums k, x => ofNum E.c k x
  | .bytes, x => ofBytes (some x)
  | .strs, x => ofScalar E.c .str x
  | .structs m, x => ofStruct ⟨x, m, plainFields E.W m, false⟩

/-- `Get` (impl.go 235, 296, 329, 362, 405-411). -/
def listGet (E : Env) (k : Kind) (h : Heap k.Item) (s : Slice) (i : Nat) : Res Value := do
  let x ← getAt h s i
  .ok (ofItem E k x)

/-- `Set` (impl.go 238, 299, 332, 365, 413-416). -/
def listSet (E : Env) (k : Kind) (h : Heap k.Item) (s : Slice) (i : Nat) (v : Value) : Res (Heap k.Item) := do
  let x ← item E k v
  setAt h s i x

/-- `Append` (impl.go 242, 303, 336, 369, 418-421): the receiver is a copy of the list, and so the longer slice is dropped. -/
def listAppend (E : Env) (k : Kind) (room : List k.Item) (h : Heap k.Item) (s : Slice) (v : Value) : Res (Heap k.Item) := do
  let x ← item E k v
  .ok (append room h s x).1

end Claw.Refl
