import Verif.Props.Registry

/-!
# Opening a session: which handler runs, and what the caller is told

Models `/repo/rpc/client/client.go` `openSession` and `handleOpenAck` against `/repo/rpc/server/conn.go` `handleOpen`
and `runHandler` on one healthy connection. Simplified: an Open and its OpenAck are one step, so calls are opened one
after another (that replies reach the call that asked is C41) and the second look at `draining` (conn.go:327-332) sees
what the first saw; packing, payload limits and deadlines are C42, C145 and C143; the metadata is the list that
`ToMsgs` gives (C30).
-/

namespace Claw.Opening

open Claw

/-- msgs.claw:50-62 `RPCType`; the four a client asks for (client.go:1037, 1075, 1111, 1147). -/
inductive Kind where
  | sync | send | recv | biDir
  deriving DecidableEq, Repr

/-- handlers.go:17-60: a value of one of the four handler types, by its `Type()`; `fn` names its `HandleFunc`.
`byPointer`: a pointer to such a value, which has the same method `Type`. -/
structure Handler where
  kind : Kind
  fn : Nat
  byPointer : Bool
  deriving DecidableEq, Repr

abbrev Md := List (Str × Bytes)

/-- client.go:27-32, conn.go:21-26. -/
structure Version where
  major : UInt8
  minor : UInt8
  deriving DecidableEq, Repr

/-- msgs.claw:146-176 `ErrCode`; rpc/errors has the same numbers. -/
abbrev Code := UInt16
def errNone : Code := 0
def errInvalidArgument : Code := 3
def errUnimplemented : Code := 12
def errUnavailable : Code := 14

/-- What the caller asks for. -/
structure Call where
  pkg : Str
  service : Str
  call : Str
  kind : Kind
  md : Md
  deriving DecidableEq, Repr

/-- msgs.claw:96-119 `Open`. -/
structure OpenMsg where
  openID : UInt32
  version : Version
  call : Call
  deriving DecidableEq, Repr

/-- msgs.claw:121-143 `OpenAck`. -/
structure Ack where
  openID : UInt32
  sessionID : UInt32
  version : Version
  code : Code
  error : Str
  deriving DecidableEq, Repr

/-- A handler that was started: the session, the function that was called (`none`: no function, the session ends with
the error of conn.go:421-422), and the metadata it was given (`none`: it has no way to see them). -/
structure Ran where
  sid : UInt32
  fn : Option Nat
  md : Option Md
  deriving DecidableEq, Repr

/-- conn.go:66-93, registry.go:18-22. -/
structure Srv where
  version : Version
  reg : Registry.State Handler
  draining : Bool
  next : UInt32
  ran : List Ran

/-- conn.go:382-427 `runHandler` with the four `run…Handler` functions and no interceptor: the type switch has cases
for values only; a `SyncHandler` is given the metadata (conn.go:506-507), the others a context and a stream
(conn.go:430, 452, 475), neither of which has them. -/
def dispatch (sid : UInt32) (h : Handler) (md : Md) : Ran :=
  if h.byPointer then ⟨sid, none, none⟩
  else
    match h.kind with
    | .sync => ⟨sid, some h.fn, some md⟩
    | _ => ⟨sid, some h.fn, none⟩

/-- conn.go:645-657 `sendOpenAck`. -/
def Srv.ack (c : Srv) (o : OpenMsg) (sid : UInt32) (code : Code) (error : Str) : Ack :=
  ⟨o.openID, sid, c.version, code, error⟩

/-- conn.go:302-379 `handleOpen`. -/
def Srv.handleOpen (c : Srv) (o : OpenMsg) : Srv × Ack :=
  if c.draining then (c, c.ack o 0 errUnavailable (lit "server is draining"))
  else
    match Registry.lookup c.reg o.call.pkg o.call.service o.call.call with
    | none => (c, c.ack o 0 errUnimplemented (lit "no handler registered"))
    | some h =>
      if h.kind ≠ o.call.kind then (c, c.ack o 0 errInvalidArgument (lit "RPC type mismatch"))
      else
        ({ c with next := c.next + 1, ran := c.ran ++ [dispatch c.next h o.call.md] }, c.ack o c.next errNone [])

/-- What the caller gets: a session, or an error with its category and text. -/
inductive Result where
  | session (sid : UInt32)
  | failed (category : Code) (text : Str)
  deriving DecidableEq, Repr

/-- client.go:648-688 `handleOpenAck` and 886-894: a rejection leaves `sess.id` zero. -/
def ackResult (a : Ack) : Result :=
  let id := if a.code ≠ errNone then 0 else a.sessionID
  if id ≠ 0 then .session id else .failed errUnavailable (lit "session open rejected by server")

/-- A client and a server; `version` and `nextOpen` are the client's. -/
structure World where
  version : Version
  nextOpen : UInt32
  srv : Srv

/-- client.go:298, conn.go:96-108. -/
def World.new (cv sv : Version) : World := ⟨cv, 0, ⟨sv, Registry.new, false, 1, []⟩⟩

/-- client.go:808-857: the message. -/
def World.openMsg (w : World) (c : Call) : OpenMsg := ⟨w.nextOpen, w.version, c⟩

/-- What the server answers. -/
def World.answer (w : World) (c : Call) : Ack := (w.srv.handleOpen (w.openMsg c)).2

/-- client.go:808-895 `openSession`. -/
def World.open (w : World) (c : Call) : World × Result :=
  ({ w with nextOpen := w.nextOpen + 1, srv := (w.srv.handleOpen (w.openMsg c)).1 }, ackResult (w.answer c))

/-- What happens: server.go:142-144 `Register`, conn.go:229-245 (draining begins), a call. -/
inductive Ev where
  | register (r : Registry.Reg Handler)
  | drain
  | open (c : Call)

def World.step (w : World) : Ev → World
  | .register r => { w with srv := { w.srv with reg := (Registry.register w.srv.reg r.pkg r.service r.call r.h).1 } }
  | .drain => { w with srv := { w.srv with draining := true } }
  | .open c => (w.open c).1

def World.run (w : World) : List Ev → World
  | [] => w
  | e :: es => (w.step e).run es

end Claw.Opening
