import Verif.Model.Api
import Verif.Spec.Wire

/-!
# Specification: a struct is a record

Nothing here mentions offsets or the index.
-/

namespace Claw

/-- Storing a scalar: storing the zero value is the same as not having the field. -/
def specScalar (t : STy) (v : t.Val) : Val := if t.isZero v then .absent else .scalar t v

/-- Is the field unset? -/
def Val.isAbsent : Val → Bool
  | .absent => true
  | _ => false

/-- Storing a child record: a child with nothing set is the same as no child. -/
def specStruct (vs : List Val) : Val := if vs.all Val.isAbsent then .absent else .struct vs

/-- Storing a list of records: an empty list is the same as no list. -/
def specStructs (items : List (List Val)) : Val := if items.isEmpty then .absent else .structs items

mutual
/-- The effect of one call on a record. -/
def Op.spec : Op → List Val → List Val
  | .set fn t v, r => r.set fn (specScalar t v)
  | .clear fn, r => r.set fn .absent
  | .nest fn m ops, r => r.set fn (specStruct (specOps ops (List.replicate m .absent)))
  | .nestNil fn, r => r.set fn .absent
  | .nestList fn m progs, r => r.set fn (specStructs (specItems m progs))
  | .peek, r => r
/-- The effect of a sequence of calls on a record. -/
def specOps : List Op → List Val → List Val
  | [], r => r
  | op :: ops, r => specOps ops (op.spec r)
/-- The records built by the programs of the items of a list. -/
def specItems (m : Nat) : List (List Op) → List (List Val)
  | [] => []
  | p :: ps => specOps p (List.replicate m .absent) :: specItems m ps
end

/-- The record after the calls `ops` on a new struct of `m` fields. -/
def specRun (m : Nat) (ops : List Op) : List Val := specOps ops (List.replicate m .absent)

/-- Bytes of the items of a string or bytes list: each with a 4-byte length. -/
def itemBytes (v : List Bytes) : Nat := (v.map fun x => 4 + x.length).sum

/-- Bytes of a map key. -/
def KTy.size : (t : KTy) → t.Val → Nat
  | .str, v => 4 + v.length | .bool, _ => 1 | .num k, _ => k.size

/-- Bytes of a map value: strings, bytes and lists of Any with 4 bytes of length, an Any with 16 bytes
of type identity. -/
def VTy.size : (t : VTy) → t.Val → Nat
  | .str, v => 4 + v.length | .bytes, v => 4 + v.length | .bool, _ => 1 | .num k, _ => k.size
  | .struct _, v => v.length
  | .any, none => 0
  | .any, some a => 16 + a.data.length
  | .listAny, items => 4 + (items.map fun a => 16 + a.data.length).sum

/-- Bytes of the entries of a map. -/
def entryBytes (kt : KTy) (vt : VTy) (es : List (kt.Val × vt.Val)) : Nat :=
  (es.map fun e => kt.size e.1 + vt.size e.2).sum

/-- Encoded size of a value that is not zero: header, 8 more bytes for 64-bit numbers, padded data
for strings, bytes, maps, and lists of bools, strings and bytes, unpadded items for lists of numbers,
16 bytes of type identity and the unpadded data for an Any. -/
def scalarSize : (t : STy) → t.Val → Nat
  | .i64, _ => 16 | .u64, _ => 16 | .f64, _ => 16
  | .bytes, v => 8 + (v.length + 7) / 8 * 8
  | .str, v => 8 + (v.length + 7) / 8 * 8
  | .lbool, v => 8 + ((v.length + 7) / 8 + 7) / 8 * 8
  | .lnum k, v => 8 + v.length * k.size
  | .lstr, v => 8 + (itemBytes v + 7) / 8 * 8
  | .lbytes, v => 8 + (itemBytes v + 7) / 8 * 8
  | .any, none => 8
  | .any, some a => 24 + a.data.length
  | .lany, v => 8 + (v.map fun a => 16 + a.data.length).sum
  | .map kt vt, v => 8 + (entryBytes kt vt v + 7) / 8 * 8
  | _, _ => 8

/-- The bytes are those of a struct: their header says how many there are. -/
def IsSegment (d : Bytes) : Prop := ∃ fn ft, decodeHeader d = some (fn, ft, d.length)

/-- A type identity and a struct. -/
def AnyVal.Storable (a : AnyVal) : Prop := a.typeHash.length = 16 ∧ IsSegment a.data

/-- Map values are what their Go types promise: structs are structs, an Any is not nil. -/
def VTy.Storable : (t : VTy) → t.Val → Prop
  | .struct _, d => IsSegment d ∧ ¬ Stuck d
  | .any, none => False
  | .any, some a => a.Storable
  | .listAny, items => ∀ a ∈ items, a.Storable
  | _, _ => True

/-- Values whose encoding is well formed: structs inside are structs, and maps are at most 2^24-1
bytes. -/
def STy.Storable : (t : STy) → t.Val → Prop
  | .any, some a => a.typeHash.length = 16
  | .lany, v => ∀ a ∈ v, a.Storable
  | .map kt vt, v => (∀ e ∈ v, vt.Storable e.2) ∧ scalarSize (.map kt vt) v ≤ 2 ^ 24 - 1
  | _, _ => True

/-- The bytes of the shortest map key. -/
def KTy.minSize : KTy → Nat
  | .str => 4 | .bool => 1 | .num k => k.size

/-- The bytes of the shortest map value that consists of zero bytes; structs and Any have none. -/
def VTy.minSize : VTy → Option Nat
  | .str => some 4 | .bytes => some 4 | .bool => some 1 | .num k => some k.size
  | .struct _ => none | .any => none | .listAny => some 4

/-- The number of additional entries a decoder finds in `pad` bytes of padding. -/
def phantoms (kt : KTy) (vt : VTy) (pad : Nat) : Nat :=
  match vt.minSize with
  | none => 0
  | some z => pad / (kt.minSize + z)

/-- The number zero. -/
def NTy.zero : (k : NTy) → k.Val
  | .i8 => 0 | .i16 => 0 | .i32 => 0 | .i64 => 0 | .u8 => 0 | .u16 => 0 | .u32 => 0 | .u64 => 0
  | .f32 => ⟨0⟩ | .f64 => ⟨0⟩

/-- The zero key. -/
def KTy.zero : (t : KTy) → t.Val
  | .bool => false | .str => [] | .num k => k.zero

/-- The zero value. -/
def VTy.zero : (t : VTy) → t.Val
  | .bool => false | .str => [] | .bytes => [] | .num k => k.zero | .struct _ => []
  | .any => none | .listAny => []

/-- The value is storable, and the padding behind it cannot be taken for data: for a string or bytes
list it is shorter than the 4 bytes of an empty item (`C11_padding_becomes_an_item`), for a map it is
shorter than the shortest entry (`C14_padding_becomes_entries`). -/
def STy.Clean : (t : STy) → t.Val → Prop
  | .lstr, v => itemBytes v % 8 = 0 ∨ 4 < itemBytes v % 8
  | .lbytes, v => itemBytes v % 8 = 0 ∨ 4 < itemBytes v % 8
  | .map kt vt, v => STy.Storable (.map kt vt) v ∧
      phantoms kt vt ((entryBytes kt vt v + 7) / 8 * 8 - entryBytes kt vt v) = 0
  | t, v => t.Storable v

mutual
/-- Encoded size of a value, used only to say that a message stays below 4 GiB. -/
def Val.size : Val → Nat
  | .absent => 0
  | .scalar t v => scalarSize t v
  | .struct vs => 8 + sizes vs
  | .structs items => 8 + itemSizes items
def sizes : List Val → Nat
  | [] => 0
  | v :: vs => v.size + sizes vs
def itemSizes : List (List Val) → Nat
  | [] => 0
  | vs :: items => 8 + sizes vs + itemSizes items
end

mutual
/-- The call is within the schema (`m` fields), a value it stores is clean, and, if it builds
children, they stay within their schema and below 4 GiB while they are built. -/
def Op.Fits (m : Nat) : Op → Prop
  | .set fn t v => fn < m ∧ t.Clean v
  | .clear fn => fn < m
  | .nest fn m' ops => fn < m ∧ m' ≤ 65536 ∧ FitsFrom m' ops (List.replicate m' .absent)
  | .nestNil fn => fn < m
  | .nestList fn m' progs => fn < m ∧ m' ≤ 65536 ∧ FitsItems m' progs
  | .peek => True
/-- All calls are within the schema and the message never reaches 4 GiB. -/
def FitsFrom (m : Nat) : List Op → List Val → Prop
  | [], _ => True
  | op :: ops, r => op.Fits m ∧ 8 + sizes (op.spec r) < 2 ^ 32 ∧ FitsFrom m ops (op.spec r)
def FitsItems (m : Nat) : List (List Op) → Prop
  | [] => True
  | p :: ps => FitsFrom m p (List.replicate m .absent) ∧ FitsItems m ps
end

/-- The program `ops` on a new struct of `m` fields respects the schema and the 4 GiB limit. -/
def Fits (m : Nat) (ops : List Op) : Prop :=
  m ≤ 65536 ∧ FitsFrom m ops (List.replicate m .absent)

mutual
/-- As `Op.Fits`, but a value needs only to be storable: its padding may be taken for data when it is read. -/
def Op.Within (m : Nat) : Op → Prop
  | .set fn t v => fn < m ∧ t.Storable v
  | .clear fn => fn < m
  | .nest fn m' ops => fn < m ∧ m' ≤ 65536 ∧ WithinFrom m' ops (List.replicate m' .absent)
  | .nestNil fn => fn < m
  | .nestList fn m' progs => fn < m ∧ m' ≤ 65536 ∧ WithinItems m' progs
  | .peek => True
/-- All calls are within the schema and the message never reaches 4 GiB. -/
def WithinFrom (m : Nat) : List Op → List Val → Prop
  | [], _ => True
  | op :: ops, r => op.Within m ∧ 8 + sizes (op.spec r) < 2 ^ 32 ∧ WithinFrom m ops (op.spec r)
def WithinItems (m : Nat) : List (List Op) → Prop
  | [] => True
  | p :: ps => WithinFrom m p (List.replicate m .absent) ∧ WithinItems m ps
end

/-- The program `ops` on a new struct of `m` fields respects the schema and the 4 GiB limit; its values need not be clean. -/
def Within (m : Nat) (ops : List Op) : Prop :=
  m ≤ 65536 ∧ WithinFrom m ops (List.replicate m .absent)

mutual
/-- Every scalar in the value is clean. -/
def Val.Tidy : Val → Prop
  | .absent => True
  | .scalar t v => t.Clean v
  | .struct vs => Tidies vs
  | .structs items => ItemsTidy items
def Tidies : List Val → Prop
  | [] => True
  | v :: vs => v.Tidy ∧ Tidies vs
def ItemsTidy : List (List Val) → Prop
  | [] => True
  | vs :: items => Tidies vs ∧ ItemsTidy items
end

mutual
/-- The value has the given type. -/
def Val.HasTy : Val → Ty → Prop
  | .absent, _ => True
  | .scalar t _, .scalar t' => t = t'
  | .scalar _ _, _ => False
  | .struct vs, .struct tys => FieldsHaveTy vs tys
  | .struct _, _ => False
  | .structs items, .structs tys => ItemsHaveTy items tys
  | .structs _, _ => False
/-- Fields known to both sides have the declared types. -/
def FieldsHaveTy : List Val → List Ty → Prop
  | [], _ => True
  | _, [] => True
  | v :: vs, ty :: tys => v.HasTy ty ∧ FieldsHaveTy vs tys
def ItemsHaveTy : List (List Val) → List Ty → Prop
  | [], _ => True
  | vs :: items, tys => FieldsHaveTy vs tys ∧ ItemsHaveTy items tys
end

mutual
/-- What a reader with another schema sees of a value: fields it does not know are dropped, fields
the writer did not know are unset. -/
def Ty.view : Ty → Val → Val
  | .struct tys, .struct vs => .struct (viewFields tys vs)
  | .structs tys, .structs items => .structs (items.map fun vs => viewFields tys vs)
  | _, v => v
def viewFields : List Ty → List Val → List Val
  | [], _ => []
  | ty :: tys, [] => Ty.view ty .absent :: viewFields tys []
  | ty :: tys, v :: vs => ty.view v :: viewFields tys vs
end

end Claw
