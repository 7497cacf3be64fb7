import Verif.Model.Api
import Verif.Model.GoStr

/-!
# The health service

`/repo/rpc/health/service.go` and `/repo/rpc/health/client.go`, with the messages of
`/repo/rpc/health/health.claw` on the wire model.  Every method of the server is one critical section of
its mutex (service.go:31-33, :39-46, :56-58), so concurrent calls are a sequence of calls.
-/

namespace Claw.HealthService

open Claw

/-- health.claw:4-13, health.go:66-75. -/
abbrev Status := UInt8
abbrev Unknown : Status := 0
abbrev Serving : Status := 1
abbrev NotServing : Status := 2
abbrev ServiceUnknown : Status := 3

/-- service.go:14-17 `Server`. -/
abbrev Server := Dict Str Status

/-- service.go:21-27 `NewServer`. -/
def newServer : Server := Dict.set Dict.empty [] Serving

/-- service.go:31-35 `SetServingStatus`. -/
def Server.setServingStatus (s : Server) (service : Str) (status : Status) : Server :=
  Dict.set s service status

/-- service.go:39-47 `ServingStatus`. -/
def Server.servingStatus (s : Server) (service : Str) : Status :=
  match s service with
  | none => ServiceUnknown
  | some x => x

/-- client.go:21-25: the request message. -/
def request (service : Str) : Res Bytes := do
  let s ← St.new 1
  let s ← STy.str.set s 0 service
  let r ← s.marshal
  return r.1

/-- service.go:50-69 `Check`; `none` is an error.  `extra` are the bytes of the buffer behind the request
(`Unmarshal` keeps the slice). -/
def Server.check (s : Server) (req extra : Bytes) : Res (Option Bytes) := do
  let fresh ← St.new 1
  match fresh.unmarshal req extra with
  | none => return none
  | some m =>
    let name ← STy.str.get m 0
    let resp ← St.new 1
    let resp ← match s name with
      | none => STy.u8.set resp 0 ServiceUnknown
      | some status => STy.u8.set resp 0 status
    let r ← resp.marshal
    return some r.1

/-- client.go:32-37: reading the response; `none` is an error. -/
def response (bytes extra : Bytes) : Res (Option Status) := do
  let fresh ← St.new 1
  match fresh.unmarshal bytes extra with
  | none => return none
  | some m => return some (← STy.u8.get m 0)

/-- client.go:12-38 `Check` on a connection that carries the messages unchanged. -/
def check (s : Server) (service : Str) (extra extra' : Bytes) : Res (Option Status) := do
  let req ← request service
  match ← s.check req extra with
  | none => return none
  | some bytes => response bytes extra'

/-- A history of `SetServingStatus` calls on a new server. -/
def Server.after : List (Str × Status) → Server
  | [] => newServer
  | x :: xs => (Server.after xs).setServingStatus x.1 x.2

end Claw.HealthService
