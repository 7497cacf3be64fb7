import Verif.Model.Bytes

/-!
# One connection of the server

`/repo/rpc/server/conn.go` as a state machine. The goroutines are the read loop (`serve`), one handler for each
session, any number of callers of `GracefulClose`, and whoever calls `Close`. An action is what one of them does
between two points where another one can run: a section under `c.mu`, a channel operation, a message written.

What a handler does is not known: at any time it may take a payload, send a payload or return. So are the
frames of the client and the moments of errors and timeouts. Reads and writes of the boolean `packingEnabled`
(which the code does not synchronise) are taken to happen one at a time. `pool.Submit` is taken to start the handler,
and the `Submit` of a limited pool (third-party code) to wait for a free place first.
-/

namespace Claw.SrvConn

open Claw

/-- `msgs.Payload`, decompressed. -/
structure Pl where
  req : UInt32
  data : Bytes
  deriving DecidableEq, Repr

/-- How far the handler of a session is: conn.go:374-379, 383-391. -/
inductive HPc where
  /-- created, not started -/
  | waiting
  /-- in the handler -/
  | running
  /-- the handler has returned and Close is sent; the deferred function is next -/
  | returned
  /-- after `delete(c.sessions, sess.id)` -/
  | deleted
  /-- after `sess.close()` -/
  | closed
  /-- after `activeHandlers.Done()` -/
  | done
  deriving DecidableEq, Repr

/-- conn.go:32-58 `serverSession`. `queue` is the content of `recvCh` (capacity 16), `recvClosed` and `cancelClosed`
say that the channels are closed; `got` is what the handler has taken from `recvCh` so far. -/
structure Sess where
  id : UInt32
  queue : List Pl := []
  recvClosed : Bool := false
  cancelClosed : Bool := false
  h : HPc := .waiting
  got : List Pl := []
  deriving DecidableEq, Repr

/-- A frame from the client. For Open: is there a handler, has it the right type, does the client ask for packing.
For Payload: is it dropped because it cannot be decompressed or is too large (conn.go:553-571). -/
inductive Frame where
  | open (openID : UInt32) (found typeOk packing : Bool)
  | close (id : UInt32)
  | payload (id : UInt32) (p : Pl) (dropped : Bool)
  | cancel (id : UInt32)
  | ping (n : UInt32)
  | other
  deriving DecidableEq, Repr

/-- A frame to the client. -/
inductive Sent where
  | ack (openID sid : UInt32) (ok packing : Bool)
  | payload (sid : UInt32) (p : Pl)
  | close (sid : UInt32)
  | pong (n : UInt32)
  | goAway (last : UInt32)
  deriving DecidableEq, Repr

/-- Where the read loop is. -/
inductive RPc where
  | idle
  /-- before `sendOpenAck` with an error -/
  | rejecting (openID : UInt32)
  /-- between the checks and the lock of conn.go:325 -/
  | creating (openID : UInt32) (packing : Bool)
  /-- the session is object `i`; before `sendOpenAck` -/
  | acking (openID : UInt32) (i : Nat)
  /-- before `pool.Submit` -/
  | submitting (i : Nat)
  /-- at the select of conn.go:574 -/
  | sending (i : Nat) (p : Pl)
  /-- before `close(sess.recvCh)` of `handleClose` -/
  | closing (i : Nat)
  /-- before `sess.close()` of `handleCancel` -/
  | cancelling (i : Nat)
  /-- before `close(sess.recvCh)` of `handleCancel` -/
  | cancelled (i : Nat)
  | ponging (n : UInt32)
  | exited
  deriving DecidableEq, Repr

/-- A call of `GracefulClose`. -/
inductive GPc where
  /-- found the connection closed and returned nil (conn.go:233-238) -/
  | early
  /-- before `goAway` -/
  | draining
  /-- at the select of conn.go:258 -/
  | waiting
  /-- all handlers done, `Close` called -/
  | finished
  /-- the context ended first -/
  | timedOut
  deriving DecidableEq, Repr

/-- conn.go:66-93 `ServerConn`. Sessions are objects in `heap`; `sessions` maps identifiers to them. `out` is what was
written to the transport, with the form it was written in (`true`: packed); `crashed` says that a goroutine panicked. -/
structure Conn where
  heap : List Sess := []
  sessions : List (UInt32 × Nat) := []
  next : UInt32 := 1
  pc : RPc := .idle
  draining : Bool := false
  closed : Bool := false
  wg : Nat := 0
  gs : List GPc := []
  allowPacking : Bool := false
  maxRPC : Nat := 0
  packing : Bool := false
  out : List (Sent × Bool) := []
  crashed : Bool := false
  deriving DecidableEq, Repr

/-- `c.sessions[id]` -/
def lookup (m : List (UInt32 × Nat)) (id : UInt32) : Option Nat := (m.find? fun e => e.1 = id).map (·.2)

/-- `delete(c.sessions, id)` -/
def remove (m : List (UInt32 × Nat)) (id : UInt32) : List (UInt32 × Nat) := m.filter fun e => e.1 ≠ id

/-- `c.sessions[id] = sess` -/
def insert (m : List (UInt32 × Nat)) (id : UInt32) (i : Nat) : List (UInt32 × Nat) := remove m id ++ [(id, i)]

/-- `close(sess.recvCh)`: a second close panics. -/
def closeRecv (c : Conn) (i : Nat) : Conn :=
  match c.heap[i]? with
  | none => c
  | some s =>
    if s.recvClosed then { c with crashed := true }
    else { c with heap := c.heap.set i { s with recvClosed := true } }

/-- conn.go:60-64 `sess.close()`; the `Once` makes a second call do nothing. -/
def closeCancel (c : Conn) (i : Nat) : Conn :=
  match c.heap[i]? with
  | none => c
  | some s => { c with heap := c.heap.set i { s with cancelClosed := true } }

/-- conn.go:603-642 `sendMsg`: nothing is written on a closed connection; OpenAck is never packed. -/
def send (c : Conn) (m : Sent) : Conn :=
  if c.closed then c
  else
    let packed := match m with
      | .ack .. => false
      | _ => c.packing
    { c with out := c.out ++ [(m, packed)] }

/-- conn.go:206-221 `Close`. -/
def closeConn (c : Conn) : Conn :=
  if c.closed then c
  else c.sessions.foldl (fun c e => closeCancel c e.2) { c with closed := true }

/-- conn.go:122-128: the deferred function of `serve`. -/
def exit (c : Conn) : Conn := c.sessions.foldl (fun c e => closeRecv c e.2) { c with pc := .exited }

/-- conn.go:161-174, 301-323, 529-537, 543-551, 581-588, 596: a frame is read, and what is done with it up to the end of the first
section under the lock. -/
def read (c : Conn) (f : Frame) : Conn :=
  match f with
  | .open o found typeOk packing =>
    if c.draining then { c with pc := .rejecting o }
    else if found = false then { c with pc := .rejecting o }
    else if typeOk = false then { c with pc := .rejecting o }
    else { c with pc := .creating o packing }
  | .close id =>
    match lookup c.sessions id with
    | none => c
    | some i => { c with sessions := remove c.sessions id, pc := .closing i }
  | .payload id p dropped =>
    match lookup c.sessions id with
    | none => c
    | some i => if dropped then c else { c with pc := .sending i p }
  | .cancel id =>
    match lookup c.sessions id with
    | none => c
    | some i => { c with sessions := remove c.sessions id, pc := .cancelling i }
  | .ping n => { c with pc := .ponging n }
  | .other => c

/-- conn.go:325-354: the section that makes the session. -/
def create (c : Conn) (o : UInt32) (packing : Bool) : Conn :=
  if c.draining then { c with pc := .rejecting o }
  else
    let id := c.next
    { c with
      next := c.next + 1
      packing := if id = 1 ∧ packing = true ∧ c.allowPacking = true then true else c.packing
      sessions := insert c.sessions id c.heap.length
      heap := c.heap ++ [{ id := id }]
      wg := c.wg + 1
      pc := .acking o c.heap.length }

/-- What can happen. -/
inductive Act where
  /-- the read loop reads a frame -/
  | read (f : Frame)
  /-- the read loop goes on -/
  | tick
  /-- the select of conn.go:574 takes its second case, `cancelCh` is closed -/
  | giveUp
  /-- the read loop ends: closed, context done, or a read error (then `close` comes before) -/
  | exit
  /-- `Close`, `setFatalError` -/
  | close
  /-- the handler of session `i` takes a payload from `recvCh` -/
  | recv (i : Nat)
  /-- the handler of session `i` sends a payload -/
  | reply (i : Nat) (p : Pl)
  /-- the handler of session `i` returns (Close is sent), or goes on in the deferred function -/
  | ret (i : Nat)
  /-- a call of `GracefulClose` -/
  | graceful
  /-- call `k` of `GracefulClose` goes on -/
  | drain (k : Nat)
  /-- the context of call `k` ends -/
  | timeout (k : Nat)
  deriving DecidableEq, Repr

/-- Handlers that occupy a place in the pool. -/
def busy (heap : List Sess) : Nat := heap.countP fun s => s.h ≠ .waiting ∧ s.h ≠ .done

/-- conn.go:110-113, 370-374: can `Submit` start one more handler? -/
def free (c : Conn) : Prop := c.maxRPC = 0 ∨ busy c.heap < c.maxRPC

instance (c : Conn) : Decidable (free c) := by unfold free; infer_instance

/-- conn.go:306, 357, 374, 535-537, 573-577, 588-592, 596-600: the next thing the read loop does. -/
def tick (c : Conn) : Option Conn :=
  match c.pc with
  | .idle => none
  | .exited => none
  | .rejecting o => some { send c (.ack o 0 false false) with pc := .idle }
  | .creating o packing => some (create c o packing)
  | .acking o i =>
    match c.heap[i]? with
    | none => none
    | some s => some { send c (.ack o s.id true c.packing) with pc := .submitting i }
  | .submitting i =>
    match c.heap[i]? with
    | none => none
    | some s =>
      if free c then some { c with heap := c.heap.set i { s with h := .running }, pc := .idle } else none
  | .sending i p =>
    match c.heap[i]? with
    | none => none
    | some s =>
      if s.recvClosed then some { c with crashed := true }
      else if s.queue.length < 16 then
        some { c with heap := c.heap.set i { s with queue := s.queue ++ [p] }, pc := .idle }
      else none
  | .closing i => some { closeRecv c i with pc := .idle }
  | .cancelling i => some { closeCancel c i with pc := .cancelled i }
  | .cancelled i => some { closeRecv c i with pc := .idle }
  | .ponging n => some { send c (.pong n) with pc := .idle }

/-- conn.go:382-425: the end of the handler and the deferred function. -/
def ret (c : Conn) (i : Nat) : Option Conn :=
  match c.heap[i]? with
  | none => none
  | some s =>
    match s.h with
    | .waiting => none
    | .running => some { send c (.close s.id) with heap := c.heap.set i { s with h := .returned } }
    | .returned => some { c with sessions := remove c.sessions s.id, heap := c.heap.set i { s with h := .deleted } }
    | .deleted => some { c with heap := c.heap.set i { s with cancelClosed := true, h := .closed } }
    | .closed =>
      if c.wg = 0 then some { c with crashed := true }
      else some { c with wg := c.wg - 1, heap := c.heap.set i { s with h := .done } }
    | .done => none

/-- conn.go:229-267, 286-299: `GracefulClose`. -/
def drain (c : Conn) (k : Nat) : Option Conn :=
  match c.gs[k]? with
  | some .draining => some { send c (.goAway (c.next - 1)) with gs := c.gs.set k .waiting }
  | some .waiting => if c.wg = 0 then some (closeConn { c with gs := c.gs.set k .finished }) else none
  | _ => none

def step (c : Conn) (a : Act) : Option Conn :=
  if c.crashed then none
  else match a with
  | .read f => if c.pc = .idle then some (read c f) else none
  | .tick => tick c
  | .giveUp =>
    match c.pc with
    | .sending i _ =>
      match c.heap[i]? with
      | none => none
      | some s => if s.cancelClosed then some { c with pc := .idle } else none
    | _ => none
  | .exit => if c.pc = .idle then some (exit c) else none
  | .close => some (closeConn c)
  | .recv i =>
    match c.heap[i]? with
    | none => none
    | some s =>
      if s.h = .running then
        match s.queue with
        | [] => none
        | p :: q => some { c with heap := c.heap.set i { s with queue := q, got := s.got ++ [p] } }
      else none
  | .reply i p =>
    match c.heap[i]? with
    | none => none
    | some s => if s.h = .running then some (send c (.payload s.id p)) else none
  | .ret i => ret c i
  | .graceful =>
    if c.closed then some { c with gs := c.gs ++ [.early] }
    else some { c with draining := true, gs := c.gs ++ [.draining] }
  | .drain k => drain c k
  | .timeout k =>
    match c.gs[k]? with
    | some .waiting => some (closeConn { c with gs := c.gs.set k .timedOut })
    | _ => none

/-- An execution. -/
def run : List Act → Conn → Option Conn
  | [], c => some c
  | a :: as, c => (step c a).bind (run as)

end Claw.SrvConn
