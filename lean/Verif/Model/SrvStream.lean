import Verif.Model.Bytes
import Verif.Model.Chain
import Verif.Model.Metadata

/-!
# The streams of a server's handlers

`/repo/rpc/server/handlers.go` and the part of `/repo/rpc/server/conn.go` that runs the handlers of streams.

`Recv` is a state machine: its actions are the cases of its two `select` statements. The others are the read loop of
the connection, which puts payloads into the channel of the session and closes it (that nothing is put into a closed
channel is C37), and whoever cancels the context. What the callback of the iterator answers is any function of the
number of payloads it has had.
-/

namespace Claw.SrvStream

open Claw

/-- msgs.Payload: the data, decompressed, and the EndStream flag. -/
structure Pl where
  data : Bytes
  fin : Bool
  deriving DecidableEq, Repr

/-- Where `Recv` is: in the `select` of the loop, in the loop that drains, or back. -/
inductive Pc where
  | loop
  | drain
  | back
  deriving DecidableEq, Repr

/-- `recvCh` with its capacity, the context, and the iterator; `stopped` says that the callback has answered false, and
`err` is the field of the stream that `Err` gives. `sent` and `before` are there for the statements only: all that was
ever put into the channel, and what had been when the context ended. -/
structure St where
  queue : List Pl := []
  closed : Bool := false
  ctxDone : Bool := false
  pc : Pc := .loop
  got : List Bytes := []
  stopped : Bool := false
  err : Option Nat := none
  sent : List Pl := []
  before : Option (List Pl) := none
  deriving DecidableEq, Repr

/-- What can happen. -/
inductive Act where
  /-- conn.go 575-578: the read loop puts a payload into the channel. -/
  | push (p : Pl)
  /-- conn.go 529-541, 581-593 and the end of serve: the channel is closed. -/
  | close
  /-- The context of the stream ends. -/
  | cancel
  /-- handlers.go 123-124 (338-339): the case of the context. -/
  | seeDone
  /-- handlers.go 128-141 and 146-159 (343-356 and 361-374): the case of the channel, in either loop. -/
  | take
  /-- handlers.go 142-145 (357-360): the default case of the loop that drains. -/
  | drained
  deriving DecidableEq, Repr

/-- handlers.go 132-141 (and the three copies) for a payload that was received. -/
def St.handle (more : Nat → Bool) (s : St) (p : Pl) : St :=
  if p.fin && p.data.isEmpty then { s with pc := .back }
  else
    let s := { s with got := s.got ++ [p.data] }
    if !more s.got.length then { s with pc := .back, stopped := true }
    else if p.fin then { s with pc := .back }
    else s

/-- One action; `none` if it cannot happen now. The capacity of the channel is 16 (conn.go 52). -/
def St.step (more : Nat → Bool) (s : St) : Act → Option St
  | .push p =>
    if s.closed || 16 ≤ s.queue.length then none
    else some { s with queue := s.queue ++ [p], sent := s.sent ++ [p] }
  | .close => if s.closed then none else some { s with closed := true }
  | .cancel =>
    if s.ctxDone then none else some { s with ctxDone := true, before := some s.sent }
  | .seeDone => if s.pc = .loop ∧ s.ctxDone then some { s with pc := .drain } else none
  | .take =>
    if s.pc = .back then none
    else match s.queue with
      | p :: q => some (({ s with queue := q }).handle more p)
      | [] => if s.closed then some { s with pc := .back } else none
  | .drained => if s.pc = .drain ∧ s.queue = [] ∧ s.closed = false then some { s with pc := .back } else none

/-- A sequence of actions. -/
def St.run (more : Nat → Bool) (s : St) : List Act → Option St
  | [] => some s
  | a :: as => match s.step more a with
    | none => none
    | some s' => s'.run more as

/-! ## Interceptors of streams -/

/-- An interceptor.ServerStream: the stream (or its adapter) that the connection made, with the context it was made
with, or anything else. -/
inductive Strm (C : Type) where
  | own (ctx : C)
  | other (n : Nat)

/-- What a handler does: it returns, or panics. -/
inductive Out (E : Type) where
  | ret (err : Option E)
  | panic
  deriving DecidableEq

/-- runBiDirHandler, runSendHandler and runRecvHandler (conn.go 428-494): `s.(*BiDirStream)`, `s.(*recvStreamAdapter)`
and `s.(*sendStreamAdapter)` panic for anything else. The handler gets its context and that of the stream. -/
def runHandler {C I E : Type} (i : Option (Chain.Interceptor C (Strm C) I (Out E))) (ctx : C) (info : I)
    (h : C → C → Out E) : Out E :=
  Chain.invoke i ctx (.own ctx) info fun c s =>
    match s with
    | .own c0 => h c c0
    | .other _ => .panic

/-- The kinds of handlers with a stream. -/
inductive Kind where
  | biDir
  | send
  | recv
  deriving DecidableEq, Repr

/-- `Send` of the stream an interceptor gets (handlers.go 106-116, 239-255, 437-439) on a stream that is open: what is
sent, and whether there is an error. `write` is sendPayload of the connection. -/
def icptSend (k : Kind) (cancelled : Bool) (write : Bytes → Bool) (p : Bytes) : List Bytes × Bool :=
  match k with
  | .biDir => if write p then ([p], false) else ([], true)
  | .recv => if cancelled then ([], true) else if write p then ([p], false) else ([], true)
  | .send => ([], false)

/-! ## Trailers -/

open Metadata

/-- The buffers, and the map of the stream: `none` is nil. -/
structure Tr where
  bufs : List Bytes
  trailer : Option AMap := none
  deriving DecidableEq, Repr

/-- The loop of MD.Clone (metadata.go 93-97), over the entries of a map. -/
def Tr.cloneLoop (bufs : List Bytes) : AMap → List Bytes × AMap
  | [] => (bufs, [])
  | (k, b) :: es =>
    let r := cloneLoop (bufs ++ [(bufs[b]?).getD []]) es
    (r.1, (k, bufs.length) :: r.2)

/-- SetTrailer (handlers.go 84-94, 215-225, 294-304). -/
def Tr.set (t : Tr) (md : Option AMap) : Tr :=
  match t.trailer, md with
  | none, none => t
  | none, some m => let r := Tr.cloneLoop t.bufs m; ⟨r.1, some r.2⟩
  | some x, none => { t with trailer := some x }
  | some x, some m => { t with trailer := some (m.foldl (fun x e => x.put e.1 e.2) x) }

/-- The contents of the trailer under a key. -/
def Tr.view (t : Tr) (k : Str) : Option Bytes := (t.trailer.bind (·.look k)).bind (t.bufs[·]?)

/-- msgs.Close as the server sends it (conn.go 660-673); the entries of the trailer by MD.ToMsgs. -/
structure CloseMsg where
  code : Nat
  text : Bytes
  md : List (Str × Bytes)
  deriving DecidableEq, Repr

/-- sendClose (conn.go 660-673) with ToMsgs (metadata.go 119-131). -/
def sendClose (code : Nat) (text : Bytes) (t : Tr) : CloseMsg :=
  ⟨code, text, (t.trailer.getD []).map fun e => (e.1, (t.bufs[e.2]?).getD [])⟩

/-- All that the client makes of a Close message: the error of recvIter (client.go 1205-1215) and of doCall
(sync.go), and that the channel is closed (client.go 691-712). -/
def clientView (c : CloseMsg) : Option (Nat × Bytes) := if c.code = 0 then none else some (c.code, c.text)

end Claw.SrvStream
