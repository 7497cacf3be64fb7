import Verif.Model.GoStr

/-!
# Resolver targets

`/repo/rpc/transport/resolver/parse.go`.  `strings.ToLower` is the parameter `low`.
-/

namespace Claw.Resolver

open Claw

/-- resolver.go: `Target`. -/
structure Target where
  scheme : Str
  authority : Str
  endpoint : Str
  deriving DecidableEq, Repr

/-- parse.go:9. -/
def defaultScheme : Str := lit "passthrough"

/-- parse.go:20-70.  `none` is an error. -/
def parse (low : Str → Str) (target : Str) : Option Target :=
  if target = [] then none
  else
    match Str.index (lit "://") target with
    | none => some ⟨defaultScheme, [], target⟩
    | some idx =>
      let scheme := low (target.take idx)
      let rest := target.drop (idx + 3)
      if scheme = [] then none
      else if Str.hasPrefix (lit "/") rest then
        let endpoint := rest.drop 1
        if endpoint = [] then none else some ⟨scheme, [], endpoint⟩
      else
        match Str.index (lit "/") rest with
        | none => none
        | some slashIdx =>
          let authority := rest.take slashIdx
          let endpoint := rest.drop (slashIdx + 1)
          if endpoint = [] then none else some ⟨scheme, authority, endpoint⟩

/-- parse.go:73-78. -/
def Target.string (t : Target) : Str :=
  if t.authority = [] then t.scheme ++ lit ":///" ++ t.endpoint
  else t.scheme ++ lit "://" ++ t.authority ++ lit "/" ++ t.endpoint

end Claw.Resolver
