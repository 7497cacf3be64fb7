import Verif.Lemmas.GoStr

/-!
# Handler registry and health service

`/repo/rpc/server/registry.go` and `/repo/rpc/health/service.go`.  Every method takes the
registry's mutex for its whole body, so a concurrent execution is a sequence of whole calls.
-/

namespace Claw.Registry

open Claw

/-- registry.go:18-22: the map `handlers` as its entries.  `put` below never adds a key twice. -/
structure State (H : Type) where
  handlers : List (Str × H)

/-- registry.go:25-29. -/
def new {H : Type} : State H := ⟨[]⟩

/-- registry.go:62-64. -/
def makeKey (pkg service call : Str) : Str := pkg ++ lit "/" ++ service ++ lit "/" ++ call

/-- `r.handlers[key]` with its presence. -/
def State.find {H : Type} (s : State H) (key : Str) : Option H :=
  (s.handlers.find? fun e => e.1 = key).map (·.2)

/-- registry.go:32-44.  The result is `true` for a nil error, `false` for `ErrHandlerExists`. -/
def register {H : Type} (s : State H) (pkg service call : Str) (h : H) : State H × Bool :=
  let key := makeKey pkg service call
  match s.find key with
  | some _ => (s, false)
  | none => (⟨s.handlers ++ [(key, h)]⟩, true)

/-- registry.go:47-55. -/
def lookup {H : Type} (s : State H) (pkg service call : Str) : Option H :=
  s.find (makeKey pkg service call)

/-- `strings.SplitN(s, "/", n + 1)`: at most `n` cuts. -/
def splitN : Nat → Str → List Str
  | 0, s => [s]
  | _ + 1, [] => [[]]
  | n + 1, c :: s =>
    if c = Str.slash then [] :: splitN n s
    else
      match splitN (n + 1) s with
      | [] => [[c]]
      | p :: ps => (c :: p) :: ps

/-- registry.go:75-96.  Go iterates in an unspecified order; the order here is that of
registration, and the statements below do not depend on it.  The handler stands for its type. -/
def handlers {H : Type} (s : State H) : List ((Str × Str × Str) × H) :=
  s.handlers.filterMap fun e =>
    match splitN 2 e.1 with
    | [a, b, c] => some ((a, b, c), e.2)
    | _ => none

end Claw.Registry

namespace Claw.Health

open Claw

/-- health/health.go:42: an unsigned byte. -/
abbrev Status := UInt8

/-- health/health.go:65-71. -/
def Status.serving : Status := 1

/-- health/health.go:65-71. -/
def Status.serviceUnknown : Status := 3

/-- health/service.go:14-17. -/
abbrev State := Dict Str Status

/-- health/service.go:21-27. -/
def new : State := Dict.set Dict.empty [] Status.serving

/-- health/service.go:31-35. -/
def setServingStatus (s : State) (service : Str) (st : Status) : State := Dict.set s service st

/-- health/service.go:39-47. -/
def servingStatus (s : State) (service : Str) : Status :=
  match s service with
  | none => Status.serviceUnknown
  | some st => st

/-- health/service.go:50-68 between decoding the request and encoding the response (both are
claw structs, see C04). -/
def check (s : State) (service : Str) : Status :=
  match s service with
  | none => Status.serviceUnknown
  | some st => st

end Claw.Health
