import Verif.Model.ServiceConfig
import Verif.Model.ErrCode

/-!
# Deadlines of calls

`/repo/rpc/client/client.go` (`openSession`, `applyServiceConfig`, `Sync`), `/repo/rpc/client/sync.go` (`doCall`) and
`/repo/rpc/server/conn.go` (`handleOpen`, `runSyncHandler`). Times and durations are integers, in nanoseconds. A context is its deadline,
if it has one; contexts that are cancelled by hand are left out.
-/

namespace Claw.Deadline

open Claw
open Claw.ServiceConfig (Config applyServiceConfig)
open Claw.ErrCode (Err)

/-- One millisecond, `time.Millisecond`. -/
abbrev ms : Int := 1000000

/-- `time.Until`, that is `Time.Sub` of the standard library: the difference of two times, cut to what a `time.Duration` can hold. -/
def subTime (t u : Int) : Int := max (-(2 ^ 63)) (min (t - u) (2 ^ 63 - 1))

/-- `Duration.Milliseconds`: integer division of Go, towards zero. -/
def millis (d : Int) : Int := d.tdiv ms

/-- `context.WithDeadline`: the earlier one of the deadline of the parent and the new one. -/
def withDeadline (parent : Option Int) (d : Int) : Option Int :=
  match parent with
  | some p => if p < d then some p else some d
  | none => some d

/-- client.go:845-850: the `DeadlineMS` of the Open message written at time `now`. -/
def openDeadline (now : Int) (ctx : Option Int) : Nat :=
  match ctx with
  | none => 0
  | some d => if millis (subTime d now) > 0 then (millis (subTime d now)).toNat else 0

/-- The conversion of an integer to `int64`, and what its operations do when the result does not fit. -/
def int64 (x : Int) : Int := x.bmod (2 ^ 64)

/-- conn.go:364: `time.Duration(open.DeadlineMS()) * time.Millisecond`. -/
def duration (wire : Nat) : Int := int64 (int64 wire * ms)

/-- conn.go:360-366: the context of the handler; `parent` is that of the connection, `now` what the clock of the server shows. -/
def handlerCtx (parent : Option Int) (now : Int) (wire : Nat) : Option Int :=
  if wire > 0 then withDeadline parent (now + duration wire) else parent

/-- client.go:983-1008 and 1024: the context under which `Sync`, called with `ctx` at time `now`, opens the session. -/
def openCtx (cfg : Option Config) (pkg service call : Str) (wait : Bool) (now : Int) (ctx : Option Int) : Option Int :=
  match (applyServiceConfig cfg pkg service call ctx.isSome wait).1 with
  | some t => withDeadline ctx (now + t)
  | none => ctx

/-- A handler of synchronous calls with the interceptors around it: what it gives for a context, the time when it is called and a
request, and the time when it returns. -/
abbrev Handler := Option Int → Int → Bytes → Except Err Bytes × Int

/-- A request of a session as the server gets it. -/
structure Req where
  arrives : Int
  id : UInt32
  data : Bytes
  deriving DecidableEq, Repr

/-- conn.go:496-526 `runSyncHandler`: the replies, and the error with which it returns. `now` is the time when the loop goes on. That a
reply cannot be sent is left out. -/
def runSync (h : Handler) (ctx : Option Int) : Int → List Req → List (UInt32 × Bytes) × Option Err
  | _, [] => ([], none)
  | now, r :: rest =>
    match h ctx (max now r.arrives) r.data with
    | (.error e, _) => ([], some e)
    | (.ok d, f) =>
      ((r.id, d) :: (runSync h ctx (max (max now r.arrives) f) rest).1, (runSync h ctx (max (max now r.arrives) f) rest).2)

/-- What happens around one call of `doCall`. `written` and `failed` are when the write of the request returns, without and with an
error; `cancel` is when the write of a Cancel started at some time returns. `events` are the times when the other cases of the select
become ready: the connection is closed, the session is closed, the server closes it, the reply arrives. -/
structure World where
  written : Option Int := none
  failed : Option Int := none
  cancel : Int → Option Int := fun t => some t
  events : List Int := []

/-- sync.go:60-96: when the call returns, `none` if it never does. `ctx` is the context given to `Call`; the one given to `Sync` is not
kept (client.go:1043-1049). When several cases of the select are ready any of them is taken. -/
inductive Returns (w : World) (ctx : Option Int) : Option Int → Prop
  /-- the write fails -/
  | failed (t : Int) : w.failed = some t → Returns w ctx (some t)
  /-- the write never returns -/
  | stuck : w.failed = none → w.written = none → Returns w ctx none
  /-- no case ever gets ready -/
  | never (a : Int) : w.failed = none → w.written = some a → w.events = [] → ctx = none → Returns w ctx none
  /-- the context ends: a Cancel is sent -/
  | ended (a d : Int) : w.failed = none → w.written = some a → ctx = some d → (∀ b ∈ w.events, max a d ≤ max a b) →
      Returns w ctx (w.cancel (max a d))
  /-- another case is ready -/
  | event (a b : Int) : w.failed = none → w.written = some a → b ∈ w.events → (∀ c ∈ w.events, max a b ≤ max a c) →
      (∀ d, ctx = some d → max a b ≤ max a d) → Returns w ctx (some (max a b))

end Claw.Deadline
