import Verif.Model.Api

/-!
# Conversion to and from Raw structs

`struct.tmpl` (`/repo/clawc/internal/idl/struct.tmpl` 927-1116) generates for every struct `Foo` a plain Go struct
`FooRaw` and the functions `NewFooFromRaw` and `ToRaw`.

Simplifications.
* Lists and maps are written to the segment at once (`Verif.Model.ListCache` has the delay).
* A Go map is the list of its entries in the order of the keys. `NewFooFromRaw` visits them in any order and calls `Set`
  for each; `C124_map_order` shows that the order makes no difference.
* Maps whose values are structs, Any or lists of Any are left out.
* The value in a field of type `any` or `[]any` of a Raw struct is shown as what `SetFoo` would store.
-/

namespace Claw.RawConv

/-- A field of a Raw struct (idl.go 934-1037 `RawGoType`): a plain value; a slice, map or interface, which may be nil; a
pointer to the Raw struct of a nested struct, which may be nil; a slice of such pointers, which may be nil. -/
inductive RawField where
  | scalar (t : STy) (v : t.Val)
  | slice (t : STy) (v : Option t.Val)
  | nilStruct
  | struct (fs : List RawField)
  | nilStructs
  | structs (items : List RawField)

/-- Is the Go type of the field in the Raw struct one without nil? -/
def plain : STy → Bool
  | .bool | .i8 | .i16 | .i32 | .i64 | .u8 | .u16 | .u32 | .u64 | .f32 | .f64 | .str => true
  | _ => false

/-- What NewFooFromRaw does with a slice or map that is not nil (struct.tmpl 953-956, 965-980, 996-1022). There is no
branch for `any` and `[]any`. A map without entries is created but stays clean, so nothing is written. -/
def fromSlice (t : STy) (v : t.Val) (i : Nat) : List Op :=
  if t = .any ∨ t = .lany then []
  else if t.isMap && t.isZero v then []
  else [.set i t v]

mutual
/-- The calls of NewFooFromRaw for field number `i` (struct.tmpl 940-1024). -/
def fromField : Ty → RawField → Nat → List Op
  | .scalar _, .scalar t v, i => if t.isZero v then [] else [.set i t v]
  | .scalar _, .slice t (some v), i => fromSlice t v i
  | .struct tys, .struct fs, i => [.nest i tys.length (fromFields tys fs 0)]
  | .structs tys, .structs items, i => [.nestList i tys.length (fromItems tys items)]
  | _, _, _ => []
/-- The calls for fields `i`, `i+1`, … -/
def fromFields : List Ty → List RawField → Nat → List Op
  | ty :: tys, f :: fs, i => fromField ty f i ++ fromFields tys fs (i + 1)
  | _, _, _ => []
/-- The programs of the items of a list; items that are nil are passed over (struct.tmpl 981-995). -/
def fromItems : List Ty → List RawField → List (List Op)
  | _, [] => []
  | tys, .struct fs :: items => fromFields tys fs 0 :: fromItems tys items
  | tys, _ :: items => fromItems tys items
end

/-- struct.tmpl 937-1027 `NewFooFromRaw`, as the program it runs on a new struct. -/
def fromRaw (tys : List Ty) (raw : List RawField) : List Op := fromFields tys raw 0

/-- ToRaw on a field that is no struct or list of structs (struct.tmpl 1033-1065, 1091-1110): plain values are read;
bytes and lists are read if the field is there; maps if they have entries; `any` and `[]any` stay nil. -/
def toScalar (t : STy) (s : St) (i : Nat) : Res RawField :=
  if plain t then do
    let v ← t.get s i
    return .scalar t v
  else if t = .any ∨ t = .lany then .ok (.slice t none)
  else if t.isMap then do
    let v ← t.get s i
    return if t.isZero v then .slice t none else .slice t (some v)
  else do
    let (h, _) ← s.hasField i
    if h then
      let v ← t.get s i
      return .slice t (some v)
    else return .slice t none

mutual
/-- ToRaw on field number `i` (struct.tmpl 1032-1113). A field that is there and has no child panics. -/
def toField : Ty → St → Nat → Res RawField
  | .scalar t, s, i => toScalar t s i
  | .struct tys, s, i => do
    let (h, _) ← s.hasField i
    if h then
      match ← getNestedStruct s i tys.length with
      | none => .panic
      | some c =>
        let fs ← toFields tys c 0
        return .struct fs
    else return .nilStruct
  | .structs tys, s, i => do
    let (h, _) ← s.hasField i
    if h then
      match ← getListStructs s i tys.length with
      | none => return .structs []
      | some cs =>
        let items ← mapRes (fun c => do
          let fs ← toFields tys c 0
          return RawField.struct fs) cs
        return .structs items
    else return .nilStructs
/-- ToRaw on fields `i`, `i+1`, … -/
def toFields : List Ty → St → Nat → Res (List RawField)
  | [], _, _ => .ok []
  | ty :: tys, s, i => do
    let f ← toField ty s i
    let fs ← toFields tys s (i + 1)
    return f :: fs
end

/-- struct.tmpl 1029-1116 `ToRaw`. -/
def toRaw (tys : List Ty) (s : St) : Res (List RawField) := toFields tys s 0

end Claw.RawConv
