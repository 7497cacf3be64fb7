import Verif.Model.ServerConn

/-!
# One connection of the client

`/repo/rpc/client/client.go` as a state machine. The goroutines are the read loop, the callers of `openSession`, one
reader for each session (`recvIter`; the calls of a `SyncClient` are in `Model/SyncClient`), callers of `GracefulClose`
and whoever calls `Close`. An action is what one of them does between two points where another one can run: a section
under `c.mu`, a channel operation, a message written.

The frames of the server are arbitrary, and so are the moments of errors, timeouts and ends of contexts. Reads and
writes of the boolean `packingEnabled` (which the code does not synchronise) are taken to happen one at a time.
-/

namespace Claw.CliConn

open Claw.SrvConn (lookup remove insert)

/-- `msgs.Payload`, decompressed: bytes and `EndStream`. -/
structure Pl where
  data : Bytes
  last : Bool
  deriving DecidableEq, Repr

/-- client.go:1161-1215 `recvIter`: how far the reader of a session is. -/
inductive IPc where
  | reading
  /-- the context has ended, buffered payloads are drained -/
  | draining
  /-- at `checkClose`; why: the channel was closed, the stream said it ends, the context ended -/
  | checking (why : Option Bool)
  /-- the iteration is over; the error code `Err()` gives -/
  | done (why : Option Bool) (err : Option Nat)
  deriving DecidableEq, Repr

/-- client.go:256-282 `session`. `queue` is the content of `recvCh` (capacity 16), `info` the content of `closeCh`
(capacity 1): the error code of a Close, 0 for `ErrNone`. `ready` says that `readyCh` is closed. `yielded` is what the reader has
yielded, `taken` the payloads it received. -/
structure Sess where
  sid : UInt32 := 0
  openID : UInt32
  queue : List Pl := []
  recvClosed : Bool := false
  cancelClosed : Bool := false
  ready : Bool := false
  info : Option Nat := none
  it : IPc := .reading
  taken : List Pl := []
  yielded : List Bytes := []
  deriving DecidableEq, Repr

/-- client.go:808-892: where the call of `openSession` that made a session is. -/
inductive OPc where
  /-- before `sendMsg` -/
  | registered
  /-- at the select of client.go:865 -/
  | waiting
  /-- the send failed, the context ended or the timer fired; the entry of `pending` is deleted -/
  | gaveUp
  /-- found the connection closed; the entry stays -/
  | sawClosed
  | accepted
  | rejected
  deriving DecidableEq, Repr

/-- A frame from the server. For Payload: is it dropped because it cannot be decompressed or is too large. -/
inductive Frame where
  | ack (openID sid : UInt32) (ok packing : Bool)
  | close (sid : UInt32) (code : Nat)
  | payload (sid : UInt32) (p : Pl) (dropped : Bool)
  | goAway
  | other
  deriving DecidableEq, Repr

/-- A frame to the server. -/
inductive Sent where
  | open (openID : UInt32) (packing : Bool)
  | payload (sid : UInt32) (p : Pl)
  | close (sid : UInt32)
  | cancel (sid : UInt32)
  | ping
  deriving DecidableEq, Repr

/-- Where the read loop is. -/
inductive RPc where
  | idle
  /-- client.go:702-707: before the Close goes into `closeCh` -/
  | closing (i : Nat) (code : Nat)
  /-- before `close(sess.recvCh)` -/
  | closed (i : Nat)
  /-- at the select of client.go:741 -/
  | sending (i : Nat) (p : Pl)
  | exited
  deriving DecidableEq, Repr

/-- A call of `GracefulClose`. -/
inductive GPc where
  /-- found the connection closed and returned nil -/
  | early
  /-- at the select of client.go:427 -/
  | waiting
  /-- before `Close`; nothing to wait for -/
  | finishing
  /-- returned the result of `Close` -/
  | finished
  /-- the context ended first -/
  | timedOut
  /-- the connection was closed by other means; returned nil -/
  | sawClosed
  deriving DecidableEq, Repr

/-- client.go:291-329 `Conn`. Sessions are objects in `heap`, with the call of `openSession` that made them in `openers`.
`drained` is the channel of that name: nil, or whether it is closed. `out` is what was written to the transport with the
form it was written in (`true`: packed); `crashed` says that a goroutine panicked. -/
structure Conn where
  heap : List Sess := []
  openers : List OPc := []
  sessions : List (UInt32 × Nat) := []
  pending : List (UInt32 × Nat) := []
  nextOpen : UInt32 := 0
  pc : RPc := .idle
  draining : Bool := false
  drained : Option Bool := none
  closed : Bool := false
  gs : List GPc := []
  usePacking : Bool := false
  negotiated : Bool := false
  packing : Bool := false
  out : List (Sent × Bool) := []
  crashed : Bool := false
  deriving DecidableEq, Repr

/-- `close(sess.recvCh)`: a second close panics. -/
def closeRecv (c : Conn) (i : Nat) : Conn :=
  match c.heap[i]? with
  | none => c
  | some s =>
    if s.recvClosed then { c with crashed := true }
    else { c with heap := c.heap.set i { s with recvClosed := true } }

/-- client.go:278-282 `sess.close()` -/
def closeCancel (c : Conn) (i : Nat) : Conn :=
  match c.heap[i]? with
  | none => c
  | some s => { c with heap := c.heap.set i { s with cancelClosed := true } }

/-- client.go:767-805 `sendMsg`: nothing is written on a closed connection; Open is never packed. -/
def send (c : Conn) (m : Sent) : Conn :=
  if c.closed then c
  else
    let packed := match m with
      | .open .. => false
      | _ => c.packing
    { c with out := c.out ++ [(m, packed)] }

/-- client.go:372-392 `Close`. -/
def closeConn (c : Conn) : Conn :=
  if c.closed then c
  else (c.sessions ++ c.pending).foldl (fun c e => closeCancel c e.2) { c with closed := true }

/-- client.go:451-463 `checkDrained`. -/
def checkDrained (c : Conn) : Conn :=
  if c.draining = true ∧ c.sessions = [] ∧ c.pending = [] then
    match c.drained with
    | some false => { c with drained := some true }
    | _ => c
  else c

/-- client.go:555-562: the deferred function of `readLoop`. -/
def exit (c : Conn) : Conn := c.sessions.foldl (fun c e => closeRecv c e.2) { c with pc := .exited }

/-- client.go:649-688 `handleOpenAck`. `close(sess.readyCh)` panics the second time. -/
def handleAck (c : Conn) (openID sid : UInt32) (ok packing : Bool) : Conn :=
  match lookup c.pending openID with
  | none => c
  | some i =>
    let c := { c with pending := remove c.pending openID }
    match c.heap[i]? with
    | none => c
    | some s =>
      if s.ready then { c with crashed := true }
      else if ok = false then
        let c := checkDrained c
        { c with heap := c.heap.set i { s with ready := true, cancelClosed := true } }
      else
        { c with
          heap := c.heap.set i { s with sid := sid, ready := true }
          sessions := insert c.sessions sid i
          packing := if c.negotiated then c.packing else c.usePacking && packing
          negotiated := true }

/-- client.go:599-612, 691-701, 711-717, 757-761: a frame is read, and what is done with it up to the end of the first
section under the lock. -/
def read (c : Conn) (f : Frame) : Conn :=
  match f with
  | .ack o sid ok packing => handleAck c o sid ok packing
  | .close sid code =>
    match lookup c.sessions sid with
    | none => c
    | some i => { checkDrained { c with sessions := remove c.sessions sid } with pc := .closing i code }
  | .payload sid p dropped =>
    match lookup c.sessions sid with
    | none => c
    | some i => if dropped then c else { c with pc := .sending i p }
  | .goAway => closeConn c
  | .other => c

/-- What can happen. -/
inductive Act where
  /-- the read loop reads a frame -/
  | read (f : Frame)
  /-- the read loop goes on -/
  | tick
  /-- the select of client.go:741 takes its second case -/
  | giveUp
  /-- the read loop ends: closed, context done, or a read error (then `close` comes before) -/
  | exit
  /-- `Close`, `setFatalError` -/
  | close
  /-- `openSession` starts -/
  | open
  /-- the call of `openSession` that made session `i` sends Open (or cannot) -/
  | sendOpen (i : Nat)
  /-- its context ends or its timer fires -/
  | openTimeout (i : Nat)
  /-- it sees that the connection is closed -/
  | openClosed (i : Nat)
  /-- it sees that the session is ready -/
  | openReady (i : Nat)
  /-- the reader of session `i` receives, or finds the channel closed -/
  | recv (i : Nat)
  /-- the reader of session `i` sees that its context has ended -/
  | iterCancel (i : Nat)
  /-- the reader of session `i` goes on when nothing is buffered, or looks into `closeCh` -/
  | iterTick (i : Nat)
  /-- the user closes session `i`: `session.close()` and a Close frame -/
  | closeSess (i : Nat)
  /-- the user sends on session `i` -/
  | sendPl (i : Nat) (p : Pl)
  | sendCancel (i : Nat)
  | ping
  /-- a call of `GracefulClose` -/
  | graceful
  /-- call `k` of `GracefulClose` goes on -/
  | drain (k : Nat)
  /-- the context of call `k` ends -/
  | timeout (k : Nat)
  /-- call `k` sees that the connection is closed -/
  | gracefulClosed (k : Nat)
  deriving DecidableEq, Repr

/-- client.go:702-707, 741-744: the next thing the read loop does. -/
def tick (c : Conn) : Option Conn :=
  match c.pc with
  | .idle => none
  | .exited => none
  | .closing i code =>
    match c.heap[i]? with
    | none => none
    | some s => some { c with
        heap := c.heap.set i { s with info := match s.info with | none => some code | some k => some k }
        pc := .closed i }
  | .closed i => some { closeRecv c i with pc := .idle }
  | .sending i p =>
    match c.heap[i]? with
    | none => none
    | some s =>
      if s.recvClosed then some { c with crashed := true }
      else if s.queue.length < 16 then
        some { c with heap := c.heap.set i { s with queue := s.queue ++ [p] }, pc := .idle }
      else none

/-- client.go:1173-1182, 1192-1201: the reader received a payload. -/
def yield (s : Sess) (p : Pl) : Sess :=
  let s := { s with taken := s.taken ++ [p] }
  if p.last = true ∧ p.data = [] then { s with it := .checking (some true) }
  else
    let s := { s with yielded := s.yielded ++ [p.data] }
    if p.last then { s with it := .checking (some true) } else s

/-- client.go:1169-1172, 1188-1191: a receive of the reader. -/
def iterRecv (s : Sess) : Option Sess :=
  if s.it = .reading ∨ s.it = .draining then
    match s.queue with
    | p :: q => some (yield { s with queue := q } p)
    | [] => if s.recvClosed then some { s with it := .checking (some false) } else none
  else none

/-- client.go:1183-1185, 1205-1213: nothing is buffered while draining; `checkClose`. -/
def iterTick (s : Sess) : Option Sess :=
  match s.it with
  | .draining => if s.queue = [] ∧ s.recvClosed = false then some { s with it := .checking none } else none
  | .checking why =>
    match s.info with
    | none => some { s with it := .done why none }
    | some code => some { s with info := none, it := .done why (if code = 0 then none else some code) }
  | _ => none

/-- The reader of session `i` does something; there is one when `openSession` has returned the session. -/
def onSess (c : Conn) (i : Nat) (f : Sess → Option Sess) : Option Conn :=
  match c.openers[i]?, c.heap[i]? with
  | some .accepted, some s =>
    match f s with
    | none => none
    | some s' => some { c with heap := c.heap.set i s' }
  | _, _ => none

def step (c : Conn) (a : Act) : Option Conn :=
  if c.crashed then none
  else match a with
  | .read f => if c.pc = .idle then some (read c f) else none
  | .tick => tick c
  | .giveUp =>
    match c.pc with
    | .sending i _ =>
      match c.heap[i]? with
      | none => none
      | some s => if s.cancelClosed then some { c with pc := .idle } else none
    | _ => none
  | .exit => if c.pc = .idle then some (exit c) else none
  | .close => some (closeConn c)
  | .open =>
    -- client.go:809-829
    if c.closed then some c
    else if c.draining then some c
    else some { c with
      nextOpen := c.nextOpen + 1
      pending := insert c.pending c.nextOpen c.heap.length
      heap := c.heap ++ [{ openID := c.nextOpen }]
      openers := c.openers ++ [.registered] }
  | .sendOpen i =>
    -- client.go:858-863
    match c.openers[i]?, c.heap[i]? with
    | some .registered, some s =>
      if c.closed then some { c with pending := remove c.pending s.openID, openers := c.openers.set i .gaveUp }
      else some { send c (.open s.openID c.usePacking) with openers := c.openers.set i .waiting }
    | _, _ => none
  | .openTimeout i =>
    -- client.go:870-874, 877-881
    match c.openers[i]?, c.heap[i]? with
    | some .waiting, some s => some { c with pending := remove c.pending s.openID, openers := c.openers.set i .gaveUp }
    | _, _ => none
  | .openClosed i =>
    -- client.go:875-876
    match c.openers[i]? with
    | some .waiting => if c.closed then some { c with openers := c.openers.set i .sawClosed } else none
    | _ => none
  | .openReady i =>
    -- client.go:882-890
    match c.openers[i]?, c.heap[i]? with
    | some .waiting, some s =>
      if s.ready then some { c with openers := c.openers.set i (if s.sid ≠ 0 then .accepted else .rejected) } else none
    | _, _ => none
  | .recv i => onSess c i iterRecv
  | .iterCancel i => onSess c i fun s => if s.it = .reading then some { s with it := .draining } else none
  | .iterTick i => onSess c i iterTick
  | .closeSess i =>
    match c.openers[i]?, c.heap[i]? with
    | some .accepted, some s => some (send (closeCancel c i) (.close s.sid))
    | _, _ => none
  | .sendPl i p =>
    match c.openers[i]?, c.heap[i]? with
    | some .accepted, some s => some (send c (.payload s.sid p))
    | _, _ => none
  | .sendCancel i =>
    match c.openers[i]?, c.heap[i]? with
    | some .accepted, some s => some (send c (.cancel s.sid))
    | _, _ => none
  | .ping => some (send c .ping)
  | .graceful =>
    -- client.go:396-424
    if c.closed then some { c with gs := c.gs ++ [.early] }
    else
      let c := { c with draining := true }
      if c.sessions = [] ∧ c.pending = [] then some { c with gs := c.gs ++ [.finishing] }
      else
        let d := match c.drained with | none => some false | some b => some b
        some { c with drained := d, gs := c.gs ++ [.waiting] }
  | .drain k =>
    match c.gs[k]? with
    | some .waiting => if c.drained = some true then some { c with gs := c.gs.set k .finishing } else none
    | some .finishing => some (closeConn { c with gs := c.gs.set k .finished })
    | _ => none
  | .timeout k =>
    match c.gs[k]? with
    | some .waiting => some (closeConn { c with gs := c.gs.set k .timedOut })
    | _ => none
  | .gracefulClosed k =>
    match c.gs[k]? with
    | some .waiting => if c.closed then some { c with gs := c.gs.set k .sawClosed } else none
    | _ => none

/-- An execution. -/
def run : List Act → Conn → Option Conn
  | [], c => some c
  | a :: as, c => (step c a).bind (run as)

end Claw.CliConn
