import Verif.Model.Compress
import Verif.Model.ErrCode

/-!
# Message size limits

The four limits of a connection (`WithMaxSendMsgSize`, `WithMaxRecvMsgSize` of `/repo/rpc/client/client.go:80-92` and
`/repo/rpc/server/server.go:62-78`) and what they do to the messages of a session. A session of synchronous calls is a machine: calls
are made, frames travel in order in both directions, the handler gives whatever it gives.

Simplified: request identifiers are numbers without an end (they wrap at 32 bits in the code, see C41), the channels of a session have
no capacity (C61), and nobody cancels or closes the session but the server.
-/

namespace Claw.Limits

open Claw Claw.Compress

/-- One end of a connection: client.go:308-310, 344-346, conn.go:79-80, server.go:118-119, 130-131. `told` is what `WithMaxPayloadSize`
sets (client.go:64-68). -/
structure End where
  send : Int := 4 * 2 ^ 20
  recv : Int := 4 * 2 ^ 20
  reg : Registry := Dict.empty
  alg : UInt8 := 0
  told : UInt32 := 4 * 2 ^ 20

/-- What sending a payload comes to. -/
inductive Sent where
  | frame (f : Frame)
  /-- `ErrMessageTooLarge` with the category ResourceExhausted -/
  | tooLarge
  /-- compression failed, category Internal -/
  | compression
  deriving DecidableEq, Repr

/-- client.go:906-933, conn.go:677-703 `sendPayload` up to the transport. -/
def End.sendMsg (e : End) (p : Bytes) (fin : Bool) : Sent :=
  if e.send > 0 ∧ (p.length : Int) > e.send then .tooLarge
  else
    match sendPayload e.reg 0 e.alg p fin with
    | none => .compression
    | some f => .frame f

/-- client.go:711-745, conn.go:543-578 `handlePayload` of a known session: what is put into the channel of the session; `none` when the
message is dropped. -/
def End.recvMsg (e : End) (f : Frame) : Option (Bytes × Bool) :=
  match handlePayload e.reg 0 f with
  | none => none
  | some (d, fin) => if e.recv > 0 ∧ (d.length : Int) > e.recv then none else some (d, fin)

/-- client.go:831-843: the maximum payload size in an Open message. -/
def openSays (c : End) : UInt32 := c.told

/-- conn.go:645-657: the maximum payload size in an OpenAck message, which `sendOpenAck` leaves at zero. -/
def ackSays (_s : End) : UInt32 := 0

/-- A frame from the server. -/
inductive Down where
  | reply (id : Nat) (f : Frame)
  | close (code : UInt16)
  deriving DecidableEq, Repr

/-- A session of synchronous calls. -/
structure World where
  /-- calls made so far; each gets the next identifier -/
  next : Nat := 0
  /-- calls whose request was sent -/
  asked : List (Nat × Bytes) := []
  /-- calls that returned `ErrMessageTooLarge` at once -/
  refused : List (Nat × Bytes) := []
  up : List (Nat × Frame) := []
  inbox : List (Nat × Bytes) := []
  /-- the handler has run on these and has given this -/
  ran : List (Nat × Bytes × Except ErrCode.Err Bytes) := []
  /-- the server has ended the session with this code -/
  closed : Option UInt16 := none
  down : List Down := []
  /-- replies at the client -/
  got : List (Nat × Bytes) := []
  /-- the client has the code -/
  ended : Option UInt16 := none

inductive Act where
  /-- `Call` -/
  | call (req : Bytes)
  /-- the server reads a frame -/
  | arrive
  /-- the handler runs on the next request and gives this -/
  | serve (r : Except ErrCode.Err Bytes)
  /-- the client reads a frame -/
  | back

/-- conn.go:418-421: the loop of the handler has ended with an error; conn.go:381-390: the session is gone. -/
def World.shut (w : World) (e : ErrCode.Err) : World :=
  { w with closed := some (ErrCode.errCode (some e)), down := w.down ++ [.close (ErrCode.errCode (some e))] }

def step (c s : End) (w : World) : Act → Option World
  | .call req =>
    -- sync.go:41-63
    if w.ended.isSome then some w
    else
      match c.sendMsg req false with
      | .tooLarge => some { w with next := w.next + 1, refused := w.refused ++ [(w.next, req)] }
      | .compression => some { w with next := w.next + 1 }
      | .frame f => some { w with next := w.next + 1, asked := w.asked ++ [(w.next, req)], up := w.up ++ [(w.next, f)] }
  | .arrive =>
    -- conn.go:543-578
    match w.up with
    | [] => none
    | (i, f) :: up =>
      if w.closed.isSome then some { w with up := up }
      else
        match s.recvMsg f with
        | none => some { w with up := up }
        | some (d, _) => some { w with up := up, inbox := w.inbox ++ [(i, d)] }
  | .serve r =>
    -- conn.go:508-524 `runSyncHandler`
    if w.closed.isSome then none
    else
      match w.inbox with
      | [] => none
      | (i, req) :: inbox =>
        let w := { w with inbox := inbox, ran := w.ran ++ [(i, req, r)] }
        match r with
        | .error e => some (w.shut e)
        | .ok resp =>
          match s.sendMsg resp false with
          | .tooLarge => some (w.shut (ErrCode.Err.E 8 .other))
          | .compression => some (w.shut (ErrCode.Err.E 13 (.wrap .other)))
          | .frame f => some { w with down := w.down ++ [.reply i f] }
  | .back =>
    -- client.go:711-745, 691-708, sync.go:67-93
    match w.down with
    | [] => none
    | .close code :: down => some { w with down := down, ended := some code }
    | .reply i f :: down =>
      match c.recvMsg f with
      | none => some { w with down := down }
      | some (d, _) => some { w with down := down, got := w.got ++ [(i, d)] }

def run (c s : End) : List Act → World → Option World
  | [], w => some w
  | a :: as, w => (step c s w a).bind (run c s as)

/-- Messages sent one after the other on a stream: the frames. A message that is refused is not sent. -/
def sendAll (e : End) : List Bytes → List Frame
  | [] => []
  | p :: ps =>
    match e.sendMsg p false with
    | .frame f => f :: sendAll e ps
    | _ => sendAll e ps

/-- What the other end gives to whoever reads from the stream. -/
def recvAll (e : End) : List Frame → List Bytes
  | [] => []
  | f :: fs =>
    match e.recvMsg f with
    | some (d, _) => d :: recvAll e fs
    | none => recvAll e fs

end Claw.Limits
