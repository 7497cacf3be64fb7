import Verif.Model.Idl

/-!
# Schema declarations, as a user writes them

Written from `docs/schema_language/schema_language.md`: a struct or enum block is an opening line, then field lines or
enumerator lines mixed with comment lines, then a closing line.
-/

namespace Claw.Idl

/-- A number written in decimal. -/
def decimal (n : Nat) : Str := (Nat.toDigits 10 n).map fun c => c.toNat.toUInt8

/-- An integer written in decimal, with a minus sign if it is negative. -/
def numeral : Int → Str
  | .ofNat n => decimal n
  | .negSucc n => 45 :: decimal (n + 1)

/-- What may end a line: the end-of-line item alone, or a comment and whatever follows it. -/
def Trailer : List Str → Prop
  | [] => False
  | [_] => True
  | s :: _ :: _ => lit "//" <+: s

/-- An identifier: a letter that is not lower case, then letters and numbers. -/
def Uni.Ident (u : Uni) (s : Str) : Prop :=
  ∃ r rs, u.runes s = r :: rs ∧ u.isLower r = false ∧ u.isLetter r = true ∧
    ∀ x ∈ rs, u.isLetter x = true ∨ u.isNumber x = true

/-- A word that opens neither a comment nor closes a block. -/
def Plain (s : Str) : Prop := ¬ lit "//" <+: s ∧ s ≠ lit "}"

/-- A field declaration `Name Type @number`. -/
structure Decl where
  name : Str
  ty : Str
  num : Int
  trail : List Str

def Decl.line (d : Decl) : Line := ⟨[d.name, d.ty, 64 :: numeral d.num] ++ d.trail, false⟩

/-- The lines of a block: declarations in order, with comment lines anywhere between them. -/
inductive Body {α : Type} (line : α → Line) : List α → List Line → Prop
  | nil : Body line [] []
  | comment {ds ls} (s : Str) (rest : List Str) (h : lit "//" <+: s) :
      Body line ds ls → Body line ds (⟨s :: rest, false⟩ :: ls)
  | decl {ds ls} (d : α) : Body line ds ls → Body line (d :: ds) (line d :: ls)

/-- A closing line `}`. -/
def closing (trail : List Str) (eof : Bool) : Line := ⟨lit "}" :: trail, eof⟩

/-- An opening line `Struct Name {`. -/
def structOpening (kw name : Str) (trail : List Str) : Line := ⟨[kw, name, lit "{"] ++ trail, false⟩

/-- An enumerator `Name @number`. -/
structure Enumerator where
  name : Str
  num : Int
  trail : List Str

def Enumerator.line (d : Enumerator) : Line := ⟨[d.name, 64 :: numeral d.num] ++ d.trail, false⟩

/-- The width an enum is declared with. -/
inductive Width where
  | w8
  | w16
  deriving DecidableEq, Repr

def Width.text : Width → Str
  | .w8 => lit "uint8"
  | .w16 => lit "uint16"

def Width.bits : Width → Nat
  | .w8 => 8
  | .w16 => 16

/-- An opening line `Enum Name uint8 {`. -/
def enumOpening (kw name : Str) (w : Width) (trail : List Str) : Line :=
  ⟨[kw, name, w.text, lit "{"] ++ trail, false⟩

/-- Map types as written: the leaves are scalars (with Any), a list of Any, or a named struct. -/
inductive MapTy where
  | scalar (key val : FT)
  | anys (key : FT)
  | named (key : FT) (name : Str)
  | map (key : FT) (inner : MapTy)

/-- How a scalar type is written. -/
def scalarText : FT → Str
  | .bool => lit "bool"
  | .int8 => lit "int8"
  | .int16 => lit "int16"
  | .int32 => lit "int32"
  | .int64 => lit "int64"
  | .uint8 => lit "uint8"
  | .uint16 => lit "uint16"
  | .uint32 => lit "uint32"
  | .uint64 => lit "uint64"
  | .float32 => lit "float32"
  | .float64 => lit "float64"
  | .string => lit "string"
  | .bytes => lit "bytes"
  | .any => lit "Any"
  | _ => []

def MapTy.text : MapTy → Str
  | .scalar k v => lit "map[" ++ scalarText k ++ lit "]" ++ scalarText v
  | .anys k => lit "map[" ++ scalarText k ++ lit "]" ++ lit "[]Any"
  | .named k n => lit "map[" ++ scalarText k ++ lit "]" ++ n
  | .map k i => lit "map[" ++ scalarText k ++ lit "]" ++ i.text

/-- The scalar types of the language, Any included. -/
def FT.IsScalar (t : FT) : Prop := scalarText t ≠ []

/-- The type `[]T`. -/
def listOf : FT → FT
  | .bool => .listBools
  | .int8 => .listInt8
  | .int16 => .listInt16
  | .int32 => .listInt32
  | .int64 => .listInt64
  | .uint8 => .listUint8
  | .uint16 => .listUint16
  | .uint32 => .listUint32
  | .uint64 => .listUint64
  | .float32 => .listFloat32
  | .float64 => .listFloat64
  | .string => .listStrings
  | .bytes => .listBytes
  | .any => .listAny
  | t => t

/-- A map key: any scalar but bytes and Any. -/
def FT.IsMapKey (t : FT) : Prop := t.IsScalar ∧ t ≠ .bytes ∧ t ≠ .any

/-- What is compiled for a map type. -/
def MapTy.info : MapTy → MapInfo
  | .scalar k v => .flat k v []
  | .anys k => .flat k .listAny []
  | .named k n => .flat k .struct n
  | .map k i => .nested k i.info

/-- What a name stands for, as the type of a field: the type and whether it is an enum. -/
def meaning : Option Ident → Bool → Option (FT × Bool)
  | some (.enum 8), false => some (.uint8, true)
  | some (.enum 8), true => some (.listUint8, true)
  | some (.enum 16), false => some (.uint16, true)
  | some (.enum 16), true => some (.listUint16, true)
  | some .struct, false => some (.struct, false)
  | some .struct, true => some (.listStructs, false)
  | _, _ => none

/-- The types a field can have: a scalar, a list of scalars, a map, a name or a list of what is named. -/
inductive Written where
  | scalar (t : FT)
  | list (t : FT)
  | map (t : MapTy)
  | ref (name : Str) (isList : Bool)

def Written.text : Written → Str
  | .scalar t => scalarText t
  | .list t => lit "[]" ++ scalarText t
  | .map t => t.text
  | .ref n false => n
  | .ref n true => lit "[]" ++ n

/-- A name of this file: no package is named, and it is no scalar. -/
def LocalName (n : Str) : Prop := (91 : UInt8) ∉ n ∧ (46 : UInt8) ∉ n ∧ ∀ t : FT, t.IsScalar → n ≠ scalarText t

/-- A map type whose keys can be keys and whose named values are of this file. -/
def MapTy.OK : MapTy → Prop
  | .scalar k v => k.IsMapKey ∧ v.IsScalar
  | .anys k => k.IsMapKey
  | .named k n => k.IsMapKey ∧ LocalName n
  | .map k i => k.IsMapKey ∧ i.OK

/-- The names in a type are those of this file. -/
def Written.OK : Written → Prop
  | .scalar t => t.IsScalar
  | .list t => t.IsScalar
  | .map t => t.OK
  | .ref n _ => LocalName n

/-- What is compiled for a type, given all the identifiers of the file: the type, whether it is an enum, and the map. `none`
is an error. -/
def Written.compiled (ids : List (Str × Ident)) : Written → Option (FT × Bool × Option MapInfo)
  | .scalar t => some (t, false, none)
  | .list t => some (listOf t, false, none)
  | .map t => some (.map, false, some t.info)
  | .ref n l => (meaning (assocGet n ids) l).map fun r => (r.1, r.2, none)

end Claw.Idl
