import Verif.Model.Token

/-!
# Specification of token streams

Which values a struct can hold, and what a reader with other declarations sees of them.  Nothing
here mentions tokens.
-/

namespace Claw.Tok

open Claw.Idl (FT)

/-- The bit patterns of a scalar type: a signed integer is extended to 64 bits. -/
def Holds (t : FT) (d : UInt64) : Prop :=
  match t with
  | .bool => d = 0 ∨ d = 1
  | .int8 => ∃ v : Int8, d = v.toInt64.toUInt64
  | .int16 => ∃ v : Int16, d = v.toInt64.toUInt64
  | .int32 => ∃ v : Int32, d = v.toInt64.toUInt64
  | .int64 => True
  | .uint8 => ∃ v : UInt8, d = v.toUInt64
  | .uint16 => ∃ v : UInt16, d = v.toUInt64
  | .uint32 => ∃ v : UInt32, d = v.toUInt64
  | .uint64 => True
  | .float32 => ∃ v : UInt32, d = v.toUInt64
  | .float64 => True
  | _ => False

/-- The keys of a key type. -/
def KeyFits (k : FT) : Key → Prop
  | .str _ => k = .string
  | .num d => Holds k d

/-- The keys of a map are in strictly rising order. -/
def Rising (k : FT) (ks : List Key) : Prop := ks.Pairwise fun a b => keyCmp k a b < 0

/-- An Any value: a type hash of 16 bytes and the bytes of a struct. -/
def AnyFits (hash data : Bytes) : Prop := hash.length = 16 ∧ data ≠ []

mutual

/-- The values of a type. -/
inductive Fits (env : Env) : Ty → Val → Prop where
  | num {t e d} : Holds t d → Fits env (.num t e) (.num d)
  | str {b} : Fits env .str (.bin b)
  | bytes {b} : Fits env .bytes (.bin b)
  | nil {s} : Fits env (.struct s) .null
  | obj {s fs} : FitsAll env (env s) fs → Fits env (.struct s) (.obj fs)
  | nums {t e ds} : (∀ d ∈ ds, Holds t d) → Fits env (.listNum t e) (.nums ds)
  | strs {bs} : Fits env .listStr (.bins bs)
  | binaries {bs} : Fits env .listBytes (.bins bs)
  | list {s l} : FitsItems env s l → Fits env (.listStruct s) (.list l)
  | map {k v ks vs} : (∀ key ∈ ks, KeyFits k key) → Rising k ks → FitsVals env v ks vs →
      Fits env (.map k v) (.map ks vs)
  | noAny : Fits env .any .null
  | any {h d} : AnyFits h d → Fits env .any (.any h d)
  | anys {l} : (∀ p ∈ l, AnyFits p.1 p.2) → Fits env .listAny (.anys l)

/-- The values of the fields of a struct. -/
inductive FitsAll (env : Env) : List Decl → List Val → Prop where
  | nil : FitsAll env [] []
  | cons {d ds v vs} : Fits env d.ty v → FitsAll env ds vs → FitsAll env (d :: ds) (v :: vs)

/-- The items of a list of structs. -/
inductive FitsItems (env : Env) : Nat → List Val → Prop where
  | nil {s} : FitsItems env s []
  | cons {s fs l} : FitsAll env (env s) fs → FitsItems env s l → FitsItems env s (.obj fs :: l)

/-- The values of a map, one for each key. -/
inductive FitsVals (env : Env) : MTy → List Key → List Val → Prop where
  | nil {v} : FitsVals env v [] []
  | cons {v k ks x vs} : FitsVal env v x → FitsVals env v ks vs → FitsVals env v (k :: ks) (x :: vs)

/-- The values of the value type of a map. -/
inductive FitsVal (env : Env) : MTy → Val → Prop where
  | num {t d} : Holds t d → FitsVal env (.num t) (.num d)
  | str {b} : FitsVal env .str (.bin b)
  | any {h d} : AnyFits h d → FitsVal env .any (.any h d)
  | listAny {l} : (∀ p ∈ l, AnyFits p.1 p.2) → FitsVal env .listAny (.anys l)
  | struct {s fs} : FitsAll env (env s) fs → FitsVal env (.struct s) (.obj fs)

end

/-- No struct has two fields of one name: the Go compiler rejects the generated code otherwise. -/
def Distinct (env : Env) : Prop := ∀ s, ((env s).map (·.name)).Nodup

/-- Fields of the same struct with the same name have the same type. -/
def Agree (old new : Env) : Prop :=
  ∀ s, ∀ d ∈ old s, ∀ d' ∈ new s, d.name = d'.name → d.ty = d'.ty

/-- The declarations name the field. -/
def Known (ds : List Decl) (name : Str) : Prop := ∃ d ∈ ds, d.name = name

instance (ds : List Decl) (name : Str) : Decidable (Known ds name) :=
  inferInstanceAs (Decidable (∃ d ∈ ds, d.name = name))

/-- The fields `ds` filled by name, the others as in a new struct. -/
def readAs (ds : List Decl) (named : List (Str × Val)) : List Val :=
  ds.map fun d => ((named.find? fun p => p.1 = d.name).map (·.2)).getD d.ty.default

mutual

/-- What a reader with the declarations `old` sees of a value written with the declarations `new`:
in every struct, at every depth, its own fields with the values of the fields of the same name. -/
def view (old new : Env) (ty : Ty) : Val → Val
  | .obj fs => match ty with
    | .struct s => .obj (readAs (old s) (viewFields old new (new s) fs))
    | _ => .obj fs
  | .list l => match ty with
    | .listStruct s => .list (viewItems old new s l)
    | _ => .list l
  | .map ks vs => match ty with
    | .map _ (.struct s) => .map ks (viewItems old new s vs)
    | _ => .map ks vs
  | v => v

/-- The fields with their names. -/
def viewFields (old new : Env) : List Decl → List Val → List (Str × Val)
  | d :: ds, v :: vs => (d.name, view old new d.ty v) :: viewFields old new ds vs
  | _, _ => []

/-- A list of structs. -/
def viewItems (old new : Env) (s : Nat) : List Val → List Val
  | v :: vs => view old new (.struct s) v :: viewItems old new s vs
  | [] => []

end

/-- The values that can be skipped as unknown fields: all but a list of Any that is not empty, and a
map of such lists that is not empty. -/
def Skips : Ty → Val → Prop
  | .listAny, v => v = .anys []
  | .map _ .listAny, v => v = .map [] []
  | _, _ => True

mutual

/-- A value of which a reader that may skip unknown fields (`ignore`) finds every field either known
or skippable. -/
inductive Reads (old new : Env) (ignore : Bool) : Ty → Val → Prop where
  | obj {s fs} : ReadsAll old new ignore s (new s) fs → Reads old new ignore (.struct s) (.obj fs)
  | list {s l} : ReadsItems old new ignore s l → Reads old new ignore (.listStruct s) (.list l)
  | map {k s ks vs} : ReadsItems old new ignore s vs →
      Reads old new ignore (.map k (.struct s)) (.map ks vs)
  | flat {ty v} : (∀ fs, v ≠ .obj fs) → (∀ l, v ≠ .list l) → (∀ k s, ty ≠ .map k (.struct s)) →
      Reads old new ignore ty v

/-- The fields of struct `s`. -/
inductive ReadsAll (old new : Env) (ignore : Bool) : Nat → List Decl → List Val → Prop where
  | nil {s} : ReadsAll old new ignore s [] []
  | known {s d ds v vs} : Known (old s) d.name → Reads old new ignore d.ty v →
      ReadsAll old new ignore s ds vs → ReadsAll old new ignore s (d :: ds) (v :: vs)
  | skipped {s d ds v vs} : ¬ Known (old s) d.name → ignore = true → Skips d.ty v →
      ReadsAll old new ignore s ds vs → ReadsAll old new ignore s (d :: ds) (v :: vs)

/-- The items of a list of structs `s`. -/
inductive ReadsItems (old new : Env) (ignore : Bool) : Nat → List Val → Prop where
  | nil {s} : ReadsItems old new ignore s []
  | cons {s fs l} : ReadsAll old new ignore s (new s) fs → ReadsItems old new ignore s l →
      ReadsItems old new ignore s (.obj fs :: l)

end

/-- Append structs. -/
def appendAll : Val → List Val → Val
  | .list old, l => .list (old ++ l)
  | v, _ => v

/-- Set the entries one after the other. -/
def mergeMap (k : FT) : List Key → List Val → Val → Val
  | key :: ks, v :: vs, m => mergeMap k ks vs (mapPut k key v m)
  | _, _, m => m

/-- The entry of a map for a key. -/
def entry (k : FT) (key : Key) : List Key → List Val → Option Val
  | a :: ks, v :: vs => if keyCmp k a key = 0 then some v else entry k key ks vs
  | _, _ => none

/-- The value of a field that held `old` after the tokens of `v` were ingested. -/
def merge (ty : Ty) (old v : Val) : Val :=
  match v with
  | .null => old
  | .nums ds => appendNums old ds
  | .bins bs => appendBins old bs
  | .list l => appendAll old l
  | .map ks vs => match ty with
    | .map k _ => mergeMap k ks vs old
    | _ => old
  | .anys l => if l = [] then old else .anys l
  | v => v

/-- The calls of a callback that is to see the tokens `all` until it answers false: a beginning of
`all`, where only the last call may have been answered by false, and which is the whole of `all` unless
it was. -/
def Obeys (more : List Token → Bool) (calls all : List Token) : Prop :=
  calls <+: all ∧ (∀ a, a ≠ [] → a <+: calls → more a = false → a = calls) ∧
    (calls = all ∨ (calls ≠ [] ∧ more calls = false))

/-- The value has no struct in it. -/
def Plain : Val → Prop
  | .obj _ => False
  | .list l => l = []
  | .map _ vs => ∀ v ∈ vs, ∀ fs, v ≠ .obj fs
  | _ => True

end Claw.Tok
