import Verif.Model.Bytes

/-!
# The connection pool

`/repo/rpc/client/pool` as a state machine. The goroutines are the calls of `Sync`, `BiDir`, `Send` and `Recv` (which do the same
up to the method of the connection they call), the connect tasks (`connectWithRetry`), the health checker, the calls of `Close` and
`GracefulClose`, and the read loops of the connections. An action is what one of them does between two points where another can run.

Addresses are resolved in `New` only (pool.go:91 is the one call of `resolveAndUpdate`), so the SubConns are fixed; `maintainMinConns` and
`disconnect` are never called. What the network, the server and the balancer do is for the environment to say.
-/

namespace Claw.Pool

/-- subconn.go:22-33 -/
inductive CState where
  | idle | connecting | ready | transient | shutdown
  deriving DecidableEq, Repr

/-- rpc/health: the statuses that matter -/
inductive Health where
  | unknown | serving | notServing
  deriving DecidableEq, Repr

/-- subconn.go:63-76 `SubConn`. `conn` is an index in the list of connections. -/
structure SC where
  conn : Option Nat := none
  state : CState := .idle
  health : Health := .unknown
  deriving DecidableEq, Repr

/-- Where the read loop of a connection is: at the select of client.go:565-571, in the read, or gone. -/
inductive Rd where
  | top | reading | exited
  deriving DecidableEq, Repr

/-- A `client.Conn` as far as the pool depends on it. `fatal` says that `fatalErr` is set, `ctxDone` that the context given to `client.New`
has ended; `frames` counts the frames handled by the read loop. -/
structure CC where
  closed : Bool := false
  fatal : Bool := false
  ctxDone : Bool := false
  rd : Rd := .top
  frames : Nat := 0
  deriving DecidableEq, Repr

/-- Where `connectWithRetry` is. -/
inductive TPc where
  /-- in the dial function -/
  | dialing
  /-- `client.New` has returned; before the lock of subconn.go:206 -/
  | dialed (c : Nat)
  /-- the SubConn is shut down; before `conn.Close()` -/
  | refused (c : Nat)
  /-- `tryConnect` has returned nil; the deferred `cancel()` is next -/
  | installed (c : Nat)
  | done
  deriving DecidableEq, Repr

structure Task where
  sc : Nat
  pc : TPc := .dialing
  deriving DecidableEq, Repr

/-- Where a call is. -/
inductive CPc where
  /-- before the check of `p.closed` -/
  | start
  /-- before the lock of pool.go:168 -/
  | looking
  /-- at the select of pool.go:183, with the number of the broadcast channel it holds -/
  | waiting (gen : Nat)
  /-- SubConn `i` is picked; before `sc.Conn()` -/
  | picked (i : Nat)
  /-- connection `c` of SubConn `i`; before `conn.Sync` looks whether it is closed -/
  | has (i c : Nat)
  /-- in `openSession`; `f` frames were handled before -/
  | opening (i c f : Nat)
  /-- `conn.Sync` returned `ErrClosed`; before the lock of `handleConnectionFailure` -/
  | failed (i : Nat)
  /-- in `handleConnectionFailure` after the lock, with the old connection -/
  | replacing (i : Nat) (old : Option Nat)
  /-- before `updateReadySubConns` -/
  | updating
  /-- a session was opened on connection `c` -/
  | sent (i c : Nat)
  /-- returned an error -/
  | err
  deriving DecidableEq, Repr

structure Call where
  wait : Bool
  pc : CPc := .start
  deriving DecidableEq, Repr

/-- Where the health checker is; `todo` are the SubConns of this round not yet looked at. -/
inductive HPc where
  | idle
  | next (todo : List Nat)
  /-- SubConn `i` was ready; before the lock of `CheckHealth` -/
  | check (i : Nat) (todo : List Nat)
  /-- in `health.Check` on connection `c`; `f` frames were handled before -/
  | asking (i c f : Nat) (todo : List Nat)
  /-- before the lock that stores the status -/
  | storing (i : Nat) (s : Health) (todo : List Nat)
  /-- before `setHealth(NotServing)` -/
  | bad (i : Nat) (todo : List Nat)
  /-- before `updateReadySubConns` -/
  | updating
  | exited
  deriving DecidableEq, Repr

/-- Where a call of `Close` or `GracefulClose` is. -/
inductive KPc where
  /-- before the select -/
  | start (graceful : Bool)
  /-- `p.closed` was open; before `close(p.closed)` -/
  | saw (graceful : Bool)
  /-- `Close`: before the lock -/
  | closing
  /-- `GracefulClose`: SubConns still to shut down, and the connection whose `GracefulClose` runs -/
  | grace (todo : List Nat) (hold : Option Nat)
  /-- `GracefulClose` has returned at the end of its context, the goroutine it started goes on -/
  | timedOut (hold : Option Nat)
  /-- the call found the pool closed -/
  | early
  | done
  deriving DecidableEq, Repr

/-- pool.go:25-42 `Pool`. `open` says that the map `subConns` is not nil; `gen` numbers the broadcast channels; `crashed` says that a
goroutine panicked. -/
structure Pool where
  scs : List SC
  conns : List CC := []
  tasks : List Task
  calls : List Call := []
  h : HPc := .idle
  ks : List KPc := []
  open_ : Bool := true
  ready : List Nat := []
  gen : Nat := 0
  closed : Bool := false
  enable : Bool
  crashed : Bool := false
  deriving DecidableEq, Repr

/-- subconn.go:112-116 `IsReady` -/
def SC.isReady (s : SC) : Bool := s.state = .ready ∧ s.health = .serving

def setSC (p : Pool) (i : Nat) (s : SC) : Pool := { p with scs := p.scs.set i s }

def setCall (p : Pool) (k : Nat) (c : Call) (pc : CPc) : Pool := { p with calls := p.calls.set k { c with pc := pc } }

def setTask (p : Pool) (k : Nat) (t : Task) (pc : TPc) : Pool := { p with tasks := p.tasks.set k { t with pc := pc } }

/-- `conn.Close()` -/
def closeConn (p : Pool) (c : Nat) : Pool :=
  match p.conns[c]? with
  | none => p
  | some x => { p with conns := p.conns.set c { x with closed := true } }

def closeOpt (p : Pool) : Option Nat → Pool
  | none => p
  | some c => closeConn p c

/-- health.go:87-108 `updateReadySubConns`. The order in which the map is walked does not matter here. -/
def update (p : Pool) : Pool :=
  let ready := if p.open_ then (List.range p.scs.length).filter fun i => (p.scs[i]?.map SC.isReady).getD false else []
  { p with ready := ready, gen := if ready ≠ [] ∧ p.ready = [] then p.gen + 1 else p.gen }

/-- subconn.go:272-292 `shutdown` -/
def shut (p : Pool) (i : Nat) : Pool :=
  match p.scs[i]? with
  | none => p
  | some s => if s.state = .shutdown then p else closeOpt (setSC p i { s with state := .shutdown, conn := none }) s.conn

/-- What can happen. -/
inductive Act where
  /-- connect task `t` goes on; in the dial function: does it succeed? -/
  | task (t : Nat) (ok : Bool)
  /-- `Retry` gives up (no more retries, or the context has ended) -/
  | taskEnd (t : Nat)
  /-- the read loop of connection `c` goes on: looks at `closed` and the context, or has read a frame -/
  | rd (c : Nat)
  /-- the read or a write of connection `c` fails, a GoAway comes or a ping is not answered: `setFatalError` -/
  | fail (c : Nat)
  | newCall (wait : Bool)
  /-- call `k` goes on; `pick` is the choice of the balancer, `ok` whether it succeeds where both are possible -/
  | call (k pick : Nat) (ok : Bool)
  /-- the context of call `k` ends while it waits -/
  | callEnd (k : Nat)
  /-- a round of health checks starts -/
  | round
  /-- the health checker goes on; `s` is the answer of `health.Check` (`none`: an error) -/
  | health (s : Option Health)
  | newClose (graceful : Bool)
  /-- call `k` of `Close` or `GracefulClose` goes on -/
  | close (k : Nat)
  /-- the context of call `k` of `GracefulClose` ends -/
  | closeEnd (k : Nat)
  deriving DecidableEq, Repr

/-- subconn.go:155-220: a connect task. The context of the connections it makes is a child of `connectCtx`, which ends when
`connectWithRetry` returns (line 158). -/
def stepTask (p : Pool) (k : Nat) (ok : Bool) : Option Pool :=
  match p.tasks[k]? with
  | none => none
  | some t =>
    match t.pc with
    | .dialing =>
      if ok then some (setTask { p with conns := p.conns ++ [{}] } k t (.dialed p.conns.length))
      else match p.scs[t.sc]? with
        | none => none
        | some s =>
          -- subconn.go:174-182
          if s.state = .shutdown then some (setTask p k t .done)
          else some (setSC p t.sc { s with state := .transient })
    | .dialed c =>
      match p.scs[t.sc]? with
      | none => none
      | some s =>
        -- subconn.go:206-217
        if s.state = .shutdown then some (setTask p k t (.refused c))
        else some (setTask (setSC p t.sc { conn := some c, state := .ready, health := .serving }) k t (.installed c))
    | .refused c =>
      match p.conns[c]? with
      | none => none
      | some x => some (setTask { p with conns := p.conns.set c { x with closed := true, ctxDone := true } } k t .done)
    | .installed c =>
      match p.conns[c]? with
      | none => none
      | some x => some (setTask { p with conns := p.conns.set c { x with ctxDone := true } } k t .done)
    | .done => none

/-- subconn.go:186-193 -/
def stepTaskEnd (p : Pool) (k : Nat) : Option Pool :=
  match p.tasks[k]? with
  | none => none
  | some t =>
    match t.pc with
    | .dialing =>
      match p.scs[t.sc]? with
      | none => none
      | some s =>
        if s.state = .shutdown then some (setTask p k t .done)
        else some (setTask (setSC p t.sc { s with state := .transient }) k t .done)
    | _ => none

/-- client.go:564-614: the read loop. -/
def stepRd (p : Pool) (c : Nat) : Option Pool :=
  match p.conns[c]? with
  | none => none
  | some x =>
    match x.rd with
    | .top => some { p with conns := p.conns.set c { x with rd := if x.closed || x.ctxDone then .exited else .reading } }
    | .reading => some { p with conns := p.conns.set c { x with rd := .top, frames := x.frames + 1 } }
    | .exited => none

/-- client.go:537-545 `setFatalError` -/
def stepFail (p : Pool) (c : Nat) : Option Pool :=
  match p.conns[c]? with
  | none => none
  | some x => some { p with conns := p.conns.set c { x with closed := true, fatal := true } }

/-- pool.go:158-219, subconn.go:321-344, client.go:494-535, 808-892. -/
def stepCall (p : Pool) (k pick : Nat) (ok : Bool) : Option Pool :=
  match p.calls[k]? with
  | none => none
  | some l =>
    match l.pc with
    | .start => some (setCall p k l (if p.closed then .err else .looking))
    | .looking =>
      if p.ready ≠ [] then if pick ∈ p.ready then some (setCall p k l (.picked pick)) else none
      else if l.wait then some (setCall p k l (.waiting p.gen))
      else some (setCall p k l .err)
    | .waiting g =>
      -- `ok`: the broadcast is taken, not the closed pool
      if ok then if g < p.gen then some (setCall p k l .start) else none
      else if p.closed then some (setCall p k l .err) else none
    | .picked i =>
      match p.scs[i]? with
      | none => none
      | some s =>
        match s.conn with
        | none => some (setCall p k l .err)
        | some c => some (setCall p k l (.has i c))
    | .has i c =>
      match p.conns[c]? with
      | none => none
      | some x =>
        if x.closed then if x.fatal then some (setCall p k l .err) else some (setCall p k l (.failed i))
        else some (setCall p k l (.opening i c x.frames))
    | .opening i c f =>
      match p.conns[c]? with
      | none => none
      | some x =>
        if ok then if f < x.frames then some (setCall p k l (.sent i c)) else none
        else if x.closed then some (setCall p k l (.failed i))
        else some (setCall p k l .err)
    | .failed i =>
      match p.scs[i]? with
      | none => none
      | some s =>
        if s.state = .shutdown then some (setCall p k l .updating)
        else some (setCall (setSC p i { conn := none, state := .connecting, health := .unknown }) k l (.replacing i s.conn))
    | .replacing i old => some (setCall { closeOpt p old with tasks := p.tasks ++ [{ sc := i }] } k l .updating)
    | .updating => some (setCall (update p) k l .err)
    | .sent _ _ => none
    | .err => none

/-- health.go:42-84, subconn.go:223-254: the health checker. A check that answers needs two frames: the OpenAck and the reply. -/
def stepHealth (p : Pool) (r : Option Health) : Option Pool :=
  match p.h with
  | .idle => none
  | .exited => none
  | .next [] => some { p with h := .updating }
  | .next (i :: todo) =>
    if p.closed then some { p with h := .idle }
    else match p.scs[i]? with
      | none => none
      | some s => some { p with h := if s.state = .ready then .check i todo else .next todo }
  | .check i todo =>
    match p.scs[i]? with
    | none => none
    | some s =>
      match s.state, s.conn with
      | .ready, some c =>
        match p.conns[c]? with
        | none => none
        | some x => some { p with h := .asking i c x.frames todo }
      | _, _ => some { p with h := .bad i todo }
  | .asking i c f todo =>
    match p.conns[c]? with
    | none => none
    | some x =>
      match r with
      | none => some { p with h := .storing i .notServing todo }
      | some s => if f + 2 ≤ x.frames then some { p with h := .storing i s todo } else none
  | .storing i s todo =>
    match p.scs[i]? with
    | none => none
    | some sc => some { setSC p i { sc with health := s } with h := if s = .serving then .next todo else .bad i todo }
  | .bad i todo =>
    match p.scs[i]? with
    | none => none
    | some sc => some { setSC p i { sc with health := .notServing } with h := .next todo }
  | .updating => some { update p with h := .idle }

/-- pool.go:309-326, 333-379. The section of `Close` under the lock is one action: what the SubConns do meanwhile can be put before or
after it. A second `close(p.closed)` panics. -/
def stepClose (p : Pool) (k : Nat) : Option Pool :=
  match p.ks[k]? with
  | none => none
  | some pc =>
    match pc with
    | .start g => some { p with ks := p.ks.set k (if p.closed then .early else .saw g) }
    | .saw g =>
      if p.closed then some { p with crashed := true }
      else some { p with
        closed := true
        ks := p.ks.set k (if g then .grace (if p.open_ then List.range p.scs.length else []) none else .closing) }
    | .closing =>
      let q := if p.open_ then (List.range p.scs.length).foldl shut p else p
      some { q with open_ := false, ready := [], ks := p.ks.set k .done }
    | .grace todo (some c) => some { closeConn p c with ks := p.ks.set k (.grace todo none) }
    | .grace (i :: todo) none =>
      match p.scs[i]? with
      | none => none
      | some s =>
        if s.state = .shutdown then some { p with ks := p.ks.set k (.grace todo none) }
        else some { setSC p i { s with state := .shutdown, conn := none } with ks := p.ks.set k (.grace todo s.conn) }
    | .grace [] none => some { p with open_ := false, ready := [], ks := p.ks.set k .done }
    | .timedOut (some c) => some { closeConn p c with ks := p.ks.set k .done }
    | .timedOut none => some { p with ks := p.ks.set k .done }
    | .early => none
    | .done => none

/-- pool.go:363-369 -/
def stepCloseEnd (p : Pool) (k : Nat) : Option Pool :=
  match p.ks[k]? with
  | some (.grace _ hold) =>
    some { (List.range p.scs.length).foldl shut p with open_ := false, ready := [], ks := p.ks.set k (.timedOut hold) }
  | _ => none

def step (p : Pool) (a : Act) : Option Pool :=
  if p.crashed then none
  else match a with
  | .task t ok => stepTask p t ok
  | .taskEnd t => stepTaskEnd p t
  | .rd c => stepRd p c
  | .fail c => stepFail p c
  | .newCall wait => some { p with calls := p.calls ++ [{ wait := wait }] }
  | .call k pick ok => stepCall p k pick ok
  | .callEnd k =>
    match p.calls[k]? with
    | some l => match l.pc with
      | .waiting _ => some (setCall p k l .err)
      | _ => none
    | none => none
  | .round =>
    -- health.go:14-16, 31-37, 43-48
    if p.enable = true ∧ p.h = .idle then
      some { p with h := .next (if p.open_ then List.range p.scs.length else []) }
    else none
  | .health s => stepHealth p s
  | .newClose g => some { p with ks := p.ks ++ [.start g] }
  | .close k => stepClose p k
  | .closeEnd k => stepCloseEnd p k

def run : List Act → Pool → Option Pool
  | [], p => some p
  | a :: as, p => (step p a).bind (run as)

/-- pool.go:52-99: a pool of `n` addresses; `New` has called `Connect` for each. -/
def init (n : Nat) (enable : Bool) : Pool :=
  { scs := List.replicate n { state := .connecting }, tasks := (List.range n).map fun i => { sc := i }, enable := enable }

end Claw.Pool
