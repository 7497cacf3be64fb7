import Verif.Model.RawConv
import Verif.Spec.Record

/-!
# What conversion to and from Raw structs means

The record a Raw struct stands for, and the Raw struct of a record. Nothing here mentions calls or bytes.
-/

namespace Claw.RawConv

mutual
/-- The field of a Raw struct has the type of the schema. Nested structs have at most 65536 fields. -/
def RawField.HasTy : RawField → Ty → Prop
  | .scalar t _, .scalar t' => t = t' ∧ plain t = true
  | .slice t _, .scalar t' => t = t' ∧ plain t = false
  | .nilStruct, .struct _ => True
  | .struct fs, .struct tys => tys.length ≤ 65536 ∧ RawsHaveTy fs tys
  | .nilStructs, .structs _ => True
  | .structs items, .structs tys => tys.length ≤ 65536 ∧ RawItemsHaveTy items tys
  | _, _ => False
def RawsHaveTy : List RawField → List Ty → Prop
  | [], [] => True
  | f :: fs, ty :: tys => f.HasTy ty ∧ RawsHaveTy fs tys
  | _, _ => False
/-- Items are nil or Raw structs of the schema. -/
def RawItemsHaveTy : List RawField → List Ty → Prop
  | [], _ => True
  | .nilStruct :: items, tys => RawItemsHaveTy items tys
  | .struct fs :: items, tys => RawsHaveTy fs tys ∧ RawItemsHaveTy items tys
  | _ :: _, _ => False
end

mutual
/-- The value a field of a Raw struct stands for: nil and zero are no value, a pointer to a Raw struct that stands for
nothing is no value, items that are nil do not count. What is in a field of type `any` or `[]any` does not count either. -/
def RawField.record : RawField → Val
  | .scalar t v => specScalar t v
  | .slice _ none => .absent
  | .slice .any (some _) => .absent
  | .slice .lany (some _) => .absent
  | .slice t (some v) => specScalar t v
  | .nilStruct => .absent
  | .struct fs => specStruct (records fs)
  | .nilStructs => .absent
  | .structs items => specStructs (itemRecords items)
def records : List RawField → List Val
  | [] => []
  | f :: fs => f.record :: records fs
def itemRecords : List RawField → List (List Val)
  | [] => []
  | .struct fs :: items => records fs :: itemRecords items
  | _ :: items => itemRecords items
end

/-- The field of a Raw struct for a value that is no struct: absent is nil or zero. -/
def scalarRaw (t : STy) : Val → RawField
  | .scalar t' v =>
    if t' = .any ∨ t' = .lany then .slice t none
    else if plain t' then .scalar t' v else .slice t' (some v)
  | _ => if plain t then .scalar t t.zero else .slice t none

mutual
/-- The Raw field of a value of a record. -/
def Ty.raw : Ty → Val → RawField
  | .scalar t, v => scalarRaw t v
  | .struct tys, .struct vs => .struct (raws tys vs)
  | .struct _, _ => .nilStruct
  | .structs tys, .structs items => .structs (items.map fun vs => .struct (raws tys vs))
  | .structs _, _ => .nilStructs
/-- The Raw struct of a record; fields the record does not have are absent. -/
def raws : List Ty → List Val → List RawField
  | [], _ => []
  | ty :: tys, [] => Ty.raw ty .absent :: raws tys []
  | ty :: tys, v :: vs => Ty.raw ty v :: raws tys vs
end

mutual
/-- A field that survives: no minus zero, no slice that is empty but not nil, nothing in a field of type `any` or `[]any`,
no pointer to a Raw struct that has only zeros, no items that are nil. -/
def RawField.Plain : RawField → Prop
  | .scalar t v => t.isZero v = true → v = t.zero
  | .slice t v => ∀ x, v = some x → t ≠ .any ∧ t ≠ .lany ∧ t.isZero x = false
  | .nilStruct => True
  | .struct fs => RawsPlain fs ∧ RawsSet fs
  | .nilStructs => True
  | .structs items => items ≠ [] ∧ RawItemsPlain items
def RawsPlain : List RawField → Prop
  | [] => True
  | f :: fs => f.Plain ∧ RawsPlain fs
def RawItemsPlain : List RawField → Prop
  | [] => True
  | .struct fs :: items => RawsPlain fs ∧ RawItemsPlain items
  | _ :: _ => False
/-- Some field is neither zero nor nil. -/
def RawsSet : List RawField → Prop
  | [] => False
  | .scalar t v :: fs => t.isZero v = false ∨ RawsSet fs
  | .slice _ none :: fs => RawsSet fs
  | .nilStruct :: fs => RawsSet fs
  | .nilStructs :: fs => RawsSet fs
  | _ :: _ => True
end

mutual
/-- What a field stores is storable (`STy.Storable`: maps are below 16 MiB), and its items or
entries can be told from padding (`STy.Clean`). -/
def RawField.Clean : RawField → Prop
  | .scalar t v => t.Clean v
  | .slice t v => ∀ x, v = some x → t ≠ .any → t ≠ .lany → t.Clean x
  | .struct fs => RawsClean fs
  | .structs items => RawItemsClean items
  | _ => True
def RawsClean : List RawField → Prop
  | [] => True
  | f :: fs => f.Clean ∧ RawsClean fs
def RawItemsClean : List RawField → Prop
  | [] => True
  | .struct fs :: items => RawsClean fs ∧ RawItemsClean items
  | _ :: items => RawItemsClean items
end

mutual
/-- The value is one the generated methods of the schema make: nested structs have exactly the fields of their schema, at
most 65536 of them; and there is nothing in fields of type `any` or `[]any`. -/
def NoAny : Val → Ty → Prop
  | .absent, .struct tys => tys.length ≤ 65536
  | .absent, .structs tys => tys.length ≤ 65536
  | .absent, _ => True
  | .scalar t _, .scalar t' => t = t' ∧ t ≠ .any ∧ t ≠ .lany
  | .struct vs, .struct tys => tys.length ≤ 65536 ∧ NoAnys vs tys
  | .structs items, .structs tys => tys.length ≤ 65536 ∧ NoAnyItems items tys
  | _, _ => False
def NoAnys : List Val → List Ty → Prop
  | [], [] => True
  | v :: vs, ty :: tys => NoAny v ty ∧ NoAnys vs tys
  | _, _ => False
def NoAnyItems : List (List Val) → List Ty → Prop
  | [], _ => True
  | vs :: items, tys => NoAnys vs tys ∧ NoAnyItems items tys
end

end Claw.RawConv
