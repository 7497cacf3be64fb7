import Verif.Model.ServerConn

/-!
# The server: connections come and go, Shutdown

`/repo/rpc/server/server.go` as a state machine around the machines of its connections (`Model/ServerConn`).
A section under `s.mu` is one action.
-/

namespace Claw.Srv

open Claw SrvConn

/-- A call of `Serve`. -/
inductive SPc where
  /-- returned `ErrClosed` -/
  | refusedClosed
  /-- returned `ErrTooManyConnections` -/
  | refusedFull
  /-- in `conn.serve` of object `i`, or between its end and the lock of server.go:182 -/
  | serving (i : Nat)
  | returned
  deriving DecidableEq, Repr

/-- Where a call of `Shutdown` is. -/
inductive DPc where
  /-- at the select of server.go:228 -/
  | waiting
  /-- the context ended; these connections are still to be closed (server.go:233) -/
  | forcing (rest : List Nat)
  /-- returned nil -/
  | ok
  /-- returned the error of a `GracefulClose` -/
  | failed
  /-- returned `ctx.Err()` -/
  | ctxDone
  deriving DecidableEq, Repr

/-- A call of `Shutdown`: the connections it found, those whose goroutine has not called `GracefulClose` yet, and for
the others which call of `GracefulClose` it is. -/
structure Shut where
  snap : List Nat
  todo : List Nat
  calls : List (Nat × Nat) := []
  pc : DPc := .waiting
  deriving DecidableEq, Repr

/-- server.go:107-123 `Server`. Connections are objects in `objs`; `conns` is the map. `max` is `maxConnections`
(zero: no limit; so are negative values in the code). -/
structure Server where
  max : Nat := 0
  maxRPC : Nat := 0
  allowPacking : Bool := false
  conns : List Nat := []
  objs : List Conn := []
  closed : Bool := false
  serves : List SPc := []
  shuts : List Shut := []
  deriving DecidableEq, Repr

/-- server.go:163-178: `Serve` up to the end of the section under the lock. -/
def accept (s : Server) : Server :=
  if s.closed then { s with serves := s.serves ++ [.refusedClosed] }
  else if s.max > 0 ∧ s.conns.length ≥ s.max then { s with serves := s.serves ++ [.refusedFull] }
  else { s with
    objs := s.objs ++ [{ allowPacking := s.allowPacking, maxRPC := s.maxRPC }]
    conns := s.conns ++ [s.objs.length]
    serves := s.serves ++ [.serving s.objs.length] }

/-- server.go:195-205: `Shutdown` up to the start of the goroutines. -/
def shutdown (s : Server) : Server :=
  { s with
    closed := true
    shuts := s.shuts ++ [{ snap := s.conns, todo := s.conns, pc := if s.conns = [] then .ok else .waiting }] }

/-- A call of `GracefulClose` has returned. -/
def settled (s : Server) (e : Nat × Nat) : Bool :=
  match s.objs[e.1]? with
  | none => false
  | some c =>
    match c.gs[e.2]? with
    | some .early => true
    | some .finished => true
    | some .timedOut => true
    | _ => false

/-- It has returned an error. -/
def erred (s : Server) (e : Nat × Nat) : Bool :=
  match s.objs[e.1]? with
  | none => false
  | some c => c.gs[e.2]? = some .timedOut

inductive Act where
  | serve
  /-- something happens in connection `i` -/
  | conn (i : Nat) (a : SrvConn.Act)
  /-- call `k` of `Serve` returns from `conn.serve` and deletes its connection (server.go:180-186) -/
  | leave (k : Nat)
  | shutdown
  /-- call `k` of `Shutdown` calls `GracefulClose` of connection `i` -/
  | grace (k i : Nat)
  /-- the select of call `k` takes `done` -/
  | allDone (k : Nat)
  /-- the select of call `k` takes `ctx.Done()` -/
  | ctxDone (k : Nat)
  /-- call `k` goes on in the loop of server.go:233 -/
  | force (k : Nat)
  deriving DecidableEq, Repr

def step (s : Server) (a : Act) : Option Server :=
  match a with
  | .serve => some (accept s)
  | .conn i a =>
    if a = .graceful then none
    else match s.objs[i]? with
      | none => none
      | some c => (SrvConn.step c a).map fun c' => { s with objs := s.objs.set i c' }
  | .leave k =>
    match s.serves[k]? with
    | some (.serving i) =>
      match s.objs[i]? with
      | none => none
      | some c =>
        if c.pc = .exited then some { s with conns := s.conns.filter (· ≠ i), serves := s.serves.set k .returned } else none
    | _ => none
  | .shutdown => some (shutdown s)
  | .grace k i =>
    match s.shuts[k]? with
    | none => none
    | some h =>
      if i ∈ h.todo then
        match s.objs[i]? with
        | none => none
        | some c => (SrvConn.step c .graceful).map fun c' =>
          { s with
            objs := s.objs.set i c'
            shuts := s.shuts.set k { h with todo := h.todo.filter (· ≠ i), calls := h.calls ++ [(i, c.gs.length)] } }
      else none
  | .allDone k =>
    match s.shuts[k]? with
    | none => none
    | some h =>
      if h.pc = .waiting ∧ h.todo = [] ∧ h.calls.all (settled s) = true then
        some { s with shuts := s.shuts.set k { h with pc := if h.calls.any (erred s) then .failed else .ok } }
      else none
  | .ctxDone k =>
    match s.shuts[k]? with
    | none => none
    | some h => if h.pc = .waiting then some { s with shuts := s.shuts.set k { h with pc := .forcing h.snap } } else none
  | .force k =>
    match s.shuts[k]? with
    | none => none
    | some h =>
      match h.pc with
      | .forcing [] => some { s with shuts := s.shuts.set k { h with pc := .ctxDone } }
      | .forcing (i :: rest) =>
        match s.objs[i]? with
        | none => none
        | some c => some { s with objs := s.objs.set i (closeConn c), shuts := s.shuts.set k { h with pc := .forcing rest } }
      | _ => none

/-- An execution. -/
def run : List Act → Server → Option Server
  | [], s => some s
  | a :: as, s => (step s a).bind (run as)

end Claw.Srv
