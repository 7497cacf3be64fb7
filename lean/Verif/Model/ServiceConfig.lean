import Verif.Model.GoStr

/-!
# Service configuration

`/repo/rpc/serviceconfig/serviceconfig.go` and `applyServiceConfig` of
`/repo/rpc/client/client.go`.
-/

namespace Claw.ServiceConfig

open Claw

/-- serviceconfig.go:12-21; durations are integers. -/
structure MethodConfig where
  timeout : Int
  waitForReady : Bool
  deriving DecidableEq, Repr

/-- Go's zero value. -/
def MethodConfig.zero : MethodConfig := { timeout := 0, waitForReady := false }

/-- serviceconfig.go:25-33. -/
abbrev Config := Dict Str MethodConfig

/-- serviceconfig.go:44-47. -/
def setMethodConfig (c : Config) (pattern : Str) (cfg : MethodConfig) : Config :=
  c.set pattern cfg

/-- serviceconfig.go:50-55. -/
def setTimeout (c : Config) (pattern : Str) (t : Int) : Config :=
  c.set pattern { (c pattern).getD .zero with timeout := t }

/-- serviceconfig.go:58-63. -/
def setWaitForReady (c : Config) (pattern : Str) (w : Bool) : Config :=
  c.set pattern { (c pattern).getD .zero with waitForReady := w }

/-- serviceconfig.go:73-102.  The early return for an empty map changes nothing: all lookups
miss. -/
def getMethodConfig (c : Config) (pkg service method : Str) : Option MethodConfig :=
  match c (pkg ++ lit "/" ++ service ++ lit "/" ++ method) with
  | some cfg => some cfg
  | none =>
    match c (pkg ++ lit "/" ++ service ++ lit "/*") with
    | some cfg => some cfg
    | none =>
      match c (pkg ++ lit "/*/*") with
      | some cfg => some cfg
      | none => c (lit "*/*/*")

/-- serviceconfig.go:125-131. -/
def parsePattern (pattern : Str) : Option (Str × Str × Str) :=
  match Str.splitSlash pattern with
  | [a, b, c] => some (a, b, c)
  | _ => none

/-- client.go:983-1008: the timeout added to the context, if any, and the wait-for-ready
option used.  `cfg` is the client's configuration (`none` when nil), `hasDeadline` says
whether the caller's context has a deadline. -/
def applyServiceConfig (cfg : Option Config) (pkg service call : Str) (hasDeadline wait : Bool) :
    Option Int × Bool :=
  match cfg with
  | none => (none, wait)
  | some c =>
    match getMethodConfig c pkg service call with
    | none => (none, wait)
    | some m =>
      (if m.timeout > 0 then (if !hasDeadline then some m.timeout else none) else none,
       if m.waitForReady && !wait then true else wait)

end Claw.ServiceConfig
