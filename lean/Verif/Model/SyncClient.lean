import Verif.Model.ServerConn

/-!
# Concurrent calls on one synchronous client

`/repo/rpc/client/sync.go`: any number of goroutines are in `doCall` of the same `SyncClient`; the read loop of the
connection (`client.go:711-745` `handlePayload`, `client.go:691-708` `handleClose`) fills the receive channel of the session. An action
is a section under `s.mu` or a channel operation. What the server sends is arbitrary.
-/

namespace Claw.SyncCli

open Claw.SrvConn (Pl lookup remove insert)

/-- Where a call of `doCall` is; `some d` is a reply, `none` an error. -/
inductive CPc where
  /-- registered, the request is not sent -/
  | sending
  /-- at the select of sync.go:67 -/
  | waiting
  /-- returns this; the deferred function is next -/
  | returning (r : Option Bytes)
  /-- has returned this -/
  | done (r : Option Bytes)
  deriving DecidableEq, Repr

/-- A call of `doCall`; `ch` is the content of `respCh` (capacity 1). -/
structure Call where
  reqID : UInt32
  ch : Option Bytes := none
  pc : CPc := .sending
  deriving DecidableEq, Repr

/-- sync.go:16-25 `SyncClient` and the receive channel of its session (`queue`, capacity 16, and whether it is closed). `pending` maps
request identifiers to calls. -/
structure Cli where
  next : UInt32 := 0
  pending : List (UInt32 × Nat) := []
  calls : List Call := []
  closed : Bool := false
  queue : List Pl := []
  recvClosed : Bool := false
  crashed : Bool := false
  deriving DecidableEq, Repr

inductive Act where
  /-- `doCall` starts -/
  | call
  /-- call `i` has sent its request -/
  | sent (i : Nat)
  /-- call `i` takes one of its error exits: the send failed, the context ended, the connection or session was closed -/
  | fail (i : Nat)
  /-- the read loop puts a payload into the receive channel -/
  | deliver (p : Pl)
  /-- the read loop closes the receive channel -/
  | shut
  /-- call `i` receives from the receive channel -/
  | take (i : Nat)
  /-- call `i` receives from its own channel -/
  | resp (i : Nat)
  /-- the deferred function of call `i` -/
  | cleanup (i : Nat)
  /-- `Close` -/
  | close
  deriving DecidableEq, Repr

/-- sync.go:82-93: a payload was received by call `i`. -/
def dispatch (c : Cli) (i : Nat) (x : Call) (p : Pl) : Cli :=
  if p.req = x.reqID then { c with calls := c.calls.set i { x with pc := .returning (some p.data) } }
  else match lookup c.pending p.req with
    | none => c
    | some j =>
      match c.calls[j]? with
      | none => c
      | some y =>
        match y.ch with
        | none => { c with calls := c.calls.set j { y with ch := some p.data } }
        | some _ => c

def step (c : Cli) (a : Act) : Option Cli :=
  if c.crashed then none
  else match a with
  | .call =>
    -- sync.go:41-52
    if c.closed then some c
    else some { c with
      next := c.next + 1
      pending := insert c.pending c.next c.calls.length
      calls := c.calls ++ [{ reqID := c.next }] }
  | .sent i =>
    match c.calls[i]? with
    | none => none
    | some x => if x.pc = .sending then some { c with calls := c.calls.set i { x with pc := .waiting } } else none
  | .fail i =>
    match c.calls[i]? with
    | none => none
    | some x =>
      if x.pc = .sending ∨ x.pc = .waiting then some { c with calls := c.calls.set i { x with pc := .returning none } }
      else none
  | .deliver p =>
    if c.recvClosed = false ∧ c.queue.length < 16 then some { c with queue := c.queue ++ [p] } else none
  | .shut => if c.recvClosed then none else some { c with recvClosed := true }
  | .take i =>
    match c.calls[i]? with
    | none => none
    | some x =>
      if x.pc = .waiting then
        match c.queue with
        | [] =>
          -- a receive from a closed channel gives a payload without a struct; `ReqID` of it panics
          if c.recvClosed then some { c with crashed := true } else none
        | p :: q => some (dispatch { c with queue := q } i x p)
      else none
  | .resp i =>
    match c.calls[i]? with
    | none => none
    | some x =>
      if x.pc = .waiting then
        match x.ch with
        | none => none
        | some d => some { c with calls := c.calls.set i { x with ch := none, pc := .returning (some d) } }
      else none
  | .cleanup i =>
    -- sync.go:54-58
    match c.calls[i]? with
    | none => none
    | some x =>
      match x.pc with
      | .returning r => some { c with pending := remove c.pending x.reqID, calls := c.calls.set i { x with pc := .done r } }
      | _ => none
  | .close => some { c with closed := true }

def run : List Act → Cli → Option Cli
  | [], c => some c
  | a :: as, c => (step c a).bind (run as)

end Claw.SyncCli
