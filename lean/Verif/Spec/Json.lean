import Verif.Model.Json
import Verif.Spec.Token

/-!
# JSON values, their text, and the JSON of a struct
-/

namespace Claw.Json

open Claw.Idl (FT Out)
open Claw.Tok

mutual

/-- A JSON value. -/
inductive J where
  | null
  | bool (b : Bool)
  | num (n : Num)
  | str (b : Bytes)
  | arr (l : Js)
  | obj (m : Ms)

/-- The items of an array. -/
inductive Js where
  | nil
  | cons (j : J) (l : Js)

/-- The members of an object. -/
inductive Ms where
  | nil
  | cons (name : Bytes) (j : J) (m : Ms)

end

mutual

/-- The text of a value (RFC 8259). -/
def render : J → List Lex
  | .null => [.null]
  | .bool true => [.tru]
  | .bool false => [.fls]
  | .num n => [.num n]
  | .str b => [.str b]
  | .arr l => .lbrack :: (renderJs true l ++ [.rbrack])
  | .obj m => .lbrace :: (renderMs true m ++ [.rbrace])

/-- The text of the items: every one but the first has a comma before it. -/
def renderJs (first : Bool) : Js → List Lex
  | .nil => []
  | .cons j l => (if first then [] else [.comma]) ++ (render j ++ renderJs false l)

/-- The text of the members. -/
def renderMs (first : Bool) : Ms → List Lex
  | .nil => []
  | .cons name j m => (if first then [] else [.comma]) ++ (.str name :: .colon :: (render j ++ renderMs false m))

end

/-- The text is one JSON value. -/
def WellFormed (ls : List Lex) : Prop := ∃ j, ls = render j

/-- The items of a list. -/
def Js.ofList {α : Type} (f : α → J) : List α → Js
  | [] => .nil
  | a :: l => .cons (f a) (Js.ofList f l)

/-- The JSON of a scalar: booleans as such, numbers as numbers, floats that are no numbers as null; an
enum by its name (`""` if it has none), or by its number if that is asked for. -/
def numJ (useNums : Bool) (t : FT) (e : Option EnumT) (d : UInt64) : J :=
  match e with
  | some e => if useNums && (t == .uint8 || t == .uint16) then .num (.int d.toNat) else .str (repaired (nameOf e d))
  | none => match t with
    | .bool => .bool (d != 0)
    | .int8 | .int16 | .int32 | .int64 => .num (.int d.toInt64.toInt)
    | .float32 | .float64 => if special t d then .null else .num (.float t d)
    | _ => .num (.int d.toNat)

/-- The name of a map entry: the key, if it is a string. -/
def keyName : Key → Bytes
  | .str b => repaired b
  | .num _ => []

mutual

/-- The JSON of a field.  Empty lists and maps are null. -/
def tree (env : Env) (useNums : Bool) (anyJ : Bytes → Bytes → J) (ty : Ty) : Val → J
  | .num d => match ty with
    | .num t e => numJ useNums t e d
    | _ => .null
  | .bin b => match ty with
    | .str => .str (repaired b)
    | _ => .str (base64 b)
  | .null => .null
  | .obj fs => match ty with
    | .struct s => .obj (treeFields env useNums anyJ (env s) fs)
    | _ => .null
  | .nums ds => match ty with
    | .listNum t e => if ds = [] then .null else .arr (Js.ofList (numJ useNums t e) ds)
    | _ => .null
  | .bins bs => if bs = [] then .null else match ty with
    | .listStr => .arr (Js.ofList (fun b => .str (repaired b)) bs)
    | _ => .arr (Js.ofList (fun b => .str (base64 b)) bs)
  | .list l => match ty with
    | .listStruct s => if l = [] then .null else .arr (treeItems env useNums anyJ s l)
    | _ => .null
  | .map ks vs => match ty with
    | .map _ v => if ks = [] then .null else .obj (treeEntries env useNums anyJ v ks vs)
    | _ => .null
  | .any hash data => anyJ hash data
  | .anys l => if l = [] then .null else .arr (Js.ofList (fun p => anyJ p.1 p.2) l)

/-- The members of a struct. -/
def treeFields (env : Env) (useNums : Bool) (anyJ : Bytes → Bytes → J) : List Decl → List Val → Ms
  | d :: ds, v :: vs => .cons (repaired d.name) (tree env useNums anyJ d.ty v) (treeFields env useNums anyJ ds vs)
  | _, _ => .nil

/-- The items of a list of structs. -/
def treeItems (env : Env) (useNums : Bool) (anyJ : Bytes → Bytes → J) (s : Nat) : List Val → Js
  | v :: vs => .cons (tree env useNums anyJ (.struct s) v) (treeItems env useNums anyJ s vs)
  | [] => .nil

/-- The members of a map. -/
def treeEntries (env : Env) (useNums : Bool) (anyJ : Bytes → Bytes → J) (v : MTy) : List Key → List Val → Ms
  | key :: ks, x :: vs => .cons (keyName key) (treeVal env useNums anyJ v x) (treeEntries env useNums anyJ v ks vs)
  | _, _ => .nil

/-- The value of a map entry. -/
def treeVal (env : Env) (useNums : Bool) (anyJ : Bytes → Bytes → J) (v : MTy) : Val → J
  | .num d => match v with
    | .num t => numJ useNums t none d
    | _ => .null
  | .bin b => .str (repaired b)
  | .obj fs => match v with
    | .struct s => .obj (treeFields env useNums anyJ (env s) fs)
    | _ => .null
  | .any hash data => anyJ hash data
  | .anys l => .arr (Js.ofList (fun p => anyJ p.1 p.2) l)
  | _ => .null

end

/-- The JSON of an Any: an object with the hash of its type; if it can be decoded, the name of the type and
the members of the struct, else its bytes. The number bounds the depth. -/
def anyTree (env : Env) (useNums : Bool) (dec : AnyDec) : Nat → Bytes → Bytes → J
  | 0, hash, data => .obj (.cons (lit "@type") (.str (hexOf hash)) (.cons (lit "@value") (.str (base64 data)) .nil))
  | n + 1, hash, data =>
    match dec hash data with
    | none => .obj (.cons (lit "@type") (.str (hexOf hash)) (.cons (lit "@value") (.str (base64 data)) .nil))
    | some (s, fs, name) => .obj (.cons (lit "@type") (.str (hexOf hash)) (.cons (lit "@fieldType") (.str name)
        (treeFields env useNums (anyTree env useNums dec n) (env s) fs)))

mutual

/-- No list of structs, at any depth, has more than one item. -/
def single : Val → Bool
  | .obj fs => singles fs
  | .list l => l.length ≤ 1 && singles l
  | .map _ vs => singles vs
  | _ => true

/-- None of them has. -/
def singles : List Val → Bool
  | v :: vs => single v && singles vs
  | [] => true

end

mutual

/-- No list of structs has more than one item, and there is no map entry and no Any, at any depth. -/
def readable : Val → Bool
  | .obj fs => readables fs
  | .list l => l.length ≤ 1 && readables l
  | .map ks _ => ks.isEmpty
  | .any _ _ => false
  | .anys l => l.isEmpty
  | _ => true

/-- All of them. -/
def readables : List Val → Bool
  | v :: vs => readable v && readables vs
  | [] => true

end

/-- What comes back of a scalar: an integer that is at least 2^63 becomes 2^63 - 1; a float becomes the
float whose bits are the integer part of its value; an enum that has no name becomes 0. -/
def backNum (big : FT → UInt64 → Int) (useNums : Bool) (t : FT) (e : Option EnumT) (d : UInt64) : UInt64 :=
  match e with
  | some e =>
    if useNums && (t == .uint8 || t == .uint16) then d
    else if nameOf e d = [] then 0
    else valueOf e (repaired (nameOf e d))
  | none => match t with
    | .float32 | .float64 =>
      if special t d then 0 else norm t (Int64.ofInt (clamp (floatInt big t d))).toUInt64
    | .uint64 => if 2 ^ 63 ≤ d.toNat then 2 ^ 63 - 1 else d
    | _ => d

mutual

/-- What comes back of a field: bytes come back as their base64 text, invalid UTF-8 as U+FFFD. -/
def back (env : Env) (big : FT → UInt64 → Int) (useNums : Bool) (ty : Ty) : Val → Val
  | .num d => match ty with
    | .num t e => .num (backNum big useNums t e d)
    | _ => .num d
  | .bin b => match ty with
    | .str => .bin (repaired b)
    | _ => .bin (base64 b)
  | .obj fs => match ty with
    | .struct s => .obj (backFields env big useNums (env s) fs)
    | _ => .obj fs
  | .nums ds => match ty with
    | .listNum t e => .nums (ds.map (backNum big useNums t e))
    | _ => .nums ds
  | .bins bs => match ty with
    | .listStr => .bins (bs.map repaired)
    | _ => .bins (bs.map base64)
  | .list l => match ty with
    | .listStruct s => .list (backItems env big useNums s l)
    | _ => .list l
  | v => v

/-- The fields of a struct. -/
def backFields (env : Env) (big : FT → UInt64 → Int) (useNums : Bool) : List Decl → List Val → List Val
  | d :: ds, v :: vs => back env big useNums d.ty v :: backFields env big useNums ds vs
  | _, _ => []

/-- The items of a list of structs. -/
def backItems (env : Env) (big : FT → UInt64 → Int) (useNums : Bool) (s : Nat) : List Val → List Val
  | v :: vs => back env big useNums (.struct s) v :: backItems env big useNums s vs
  | [] => []

end

/-- A scalar that JSON keeps: no float but 0, no integer from 2^63 up, an enum that is written as a number or
whose name stands for it (or 0 without a name). -/
def KeptNum (useNums : Bool) (t : FT) (e : Option EnumT) (d : UInt64) : Prop :=
  match e with
  | some e => (useNums = true ∧ (t = .uint8 ∨ t = .uint16)) ∨
      (nameOf e d ≠ [] ∧ Utf8 (nameOf e d) ∧ valueOf e (nameOf e d) = d) ∨ (nameOf e d = [] ∧ d = 0)
  | none => match t with
    | .float32 | .float64 => d = 0
    | .uint64 => d.toNat < 2 ^ 63
    | _ => True

mutual

/-- A value all of whose scalars JSON keeps, whose strings are UTF-8 and whose bytes are empty. -/
def Kept (env : Env) (useNums : Bool) (ty : Ty) : Val → Prop
  | .num d => match ty with
    | .num t e => KeptNum useNums t e d
    | _ => True
  | .bin b => match ty with
    | .str => Utf8 b
    | _ => b = []
  | .obj fs => match ty with
    | .struct s => KeptFields env useNums (env s) fs
    | _ => True
  | .nums ds => match ty with
    | .listNum t e => ∀ d ∈ ds, KeptNum useNums t e d
    | _ => True
  | .bins bs => match ty with
    | .listStr => ∀ b ∈ bs, Utf8 b
    | _ => ∀ b ∈ bs, b = []
  | .list l => match ty with
    | .listStruct s => KeptItems env useNums s l
    | _ => True
  | _ => True

/-- The fields of a struct. -/
def KeptFields (env : Env) (useNums : Bool) : List Decl → List Val → Prop
  | d :: ds, v :: vs => Kept env useNums d.ty v ∧ KeptFields env useNums ds vs
  | _, _ => True

/-- The items of a list of structs. -/
def KeptItems (env : Env) (useNums : Bool) (s : Nat) : List Val → Prop
  | v :: vs => Kept env useNums (.struct s) v ∧ KeptItems env useNums s vs
  | [] => True

end

/-- The names of the members. -/
def Ms.names : Ms → List Bytes
  | .nil => []
  | .cons name _ m => name :: m.names

/-- What an Any is decoded to is a struct of its type. -/
def DecFits (env : Env) (dec : AnyDec) : Prop :=
  ∀ hash data s fs name, dec hash data = some (s, fs, name) → FitsAll env (env s) fs

/-- Field names are not empty and UTF-8. -/
def Named (env : Env) : Prop := ∀ s, ∀ d ∈ env s, d.name ≠ [] ∧ Utf8 d.name

end Claw.Json
