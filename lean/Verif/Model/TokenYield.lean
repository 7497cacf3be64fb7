import Verif.Model.Token

/-!
# `Walk` and the answers of its callback

`/repo/clawc/internal/render/golang/templates/clawiter.tmpl`.  `Verif.Model.Token` gives the tokens for
a callback that always asks for more; here the callback may answer false.
-/

namespace Claw.Tok

open Claw.Idl (FT)

/-- A statement of the generated method: `if !yield(tok) { return }`, or a call of the `Walk` method of
a nested struct, which has no result. -/
inductive Item where
  | tok (t : Token)
  | sub (l : List Item)

mutual

/-- The statements of `Walk` for a struct (clawiter.tmpl 26-752). -/
def script (env : Env) (s : Nat) : Val → List Item
  | .obj fs => .tok { kind := .structStart } :: scriptFields env (env s) fs ++ [.tok { kind := .structEnd }]
  | _ => []

/-- The fields, in order. -/
def scriptFields (env : Env) : List Decl → List Val → List Item
  | d :: ds, v :: vs => scriptField env d.name d.ty v ++ scriptFields env ds vs
  | _, _ => []

/-- One field: a nested struct (141-151), a list of structs (484-508), a map of structs (532-590); all
the others consist of checked calls only. -/
def scriptField (env : Env) (name : Str) (ty : Ty) : Val → List Item
  | .obj fs => match ty with
    | .struct s => [.tok { kind := .field, name, type := .struct },
        .sub (.tok { kind := .structStart } :: scriptFields env (env s) fs ++ [.tok { kind := .structEnd }])]
    | _ => []
  | .list l => match ty with
    | .listStruct s =>
      if l = [] then [.tok { kind := .field, name, type := .listStructs, isNil := true }]
      else .tok { kind := .field, name, type := .listStructs } ::
        .tok { kind := .listStart, name, type := .listStructs } ::
        (scriptItems env s l ++ [.tok { kind := .listEnd, name }])
    | _ => []
  | .map ks vs => match ty with
    | .map k (.struct s) =>
      if ks = [] then
        [.tok { kind := .field, name, type := .map, keyType := k, valueType := .struct, isNil := true }]
      else
        .tok { kind := .field, name, type := .map, keyType := k, valueType := .struct } ::
        .tok { kind := .mapStart, name, keyType := k, valueType := .struct } ::
        (scriptEntries env name k s ks vs ++ [.tok { kind := .mapEnd, name }])
    | ty => (walkField env name ty (.map ks vs)).map .tok
  | v => (walkField env name ty v).map .tok

/-- The items of a list of structs (500-503). -/
def scriptItems (env : Env) (s : Nat) : List Val → List Item
  | v :: vs => .sub (script env s v) :: scriptItems env s vs
  | [] => []

/-- The entries of a map of structs (569-581). -/
def scriptEntries (env : Env) (name : Str) (k : FT) (s : Nat) : List Key → List Val → List Item
  | key :: ks, v :: vs => .tok (entryTok name k .struct key) :: .sub (script env s v) ::
      scriptEntries env name k s ks vs
  | _, _ => []

end

mutual

/-- Run a statement: the calls made so far, and whether to go on.  `more` is the callback's answer to
its last call, given all its calls. -/
def runItem (more : List Token → Bool) (calls : List Token) : Item → List Token × Bool
  | .tok t => (calls ++ [t], more (calls ++ [t]))
  | .sub l => ((runItems more calls l).1, true)

/-- Run the statements of one `Walk` method. -/
def runItems (more : List Token → Bool) (calls : List Token) : List Item → List Token × Bool
  | [] => (calls, true)
  | i :: is => match runItem more calls i with
    | (calls', true) => runItems more calls' is
    | (calls', false) => (calls', false)

end

/-- The calls that `Walk` makes of a callback. -/
def calls (env : Env) (s : Nat) (v : Val) (more : List Token → Bool) : List Token :=
  (runItems more [] (script env s v)).1

end Claw.Tok
