import Verif.Model.GoStr

/-!
# From a handler's error to the client

`errCodeFromError` of `/repo/rpc/server/handlers.go`, and the way the resulting Close message
travels to the caller on the client.
-/

namespace Claw.ErrCode

open Claw

/-- A non-nil Go error as `errors.As` and `errors.Is` see it. -/
inductive Err where
  /-- an error with no inner error and no relation to the ones below -/
  | other
  /-- `context.DeadlineExceeded` -/
  | deadline
  /-- `context.Canceled` -/
  | canceled
  /-- the `Error` of the errors package around an inner error; `cat` is its category when it is
  an `errors.Category` of `/repo/rpc/errors`, `none` when it is some other implementation -/
  | rpc (cat : Option UInt32) (inner : Err)
  /-- `fmt.Errorf("...%w")`, `RPCErr` and other wrappers -/
  | wrap (inner : Err)
  /-- `errors.Join(a, b)`, or `fmt.Errorf` with two `%w` (longer joins nest) -/
  | join (a b : Err)
  deriving DecidableEq, Repr

/-- errors.go:208-217: `errors.E`. -/
def Err.E (cat : UInt32) (msg : Err) : Err := .rpc (some cat) (.wrap msg)

/-- `errors.As(err, &e)` for the `Error` type: the first one, outside in and left to right. -/
def asRpc : Err → Option (Option UInt32)
  | .other => none
  | .deadline => none
  | .canceled => none
  | .rpc cat _ => some cat
  | .wrap e => asRpc e
  | .join a b =>
    match asRpc a with
    | some c => some c
    | none => asRpc b

/-- `errors.Is(err, context.DeadlineExceeded)`. -/
def isDeadline : Err → Bool
  | .other => false
  | .deadline => true
  | .canceled => false
  | .rpc _ e => isDeadline e
  | .wrap e => isDeadline e
  | .join a b => isDeadline a || isDeadline b

/-- `errors.Is(err, context.Canceled)`. -/
def isCanceled : Err → Bool
  | .other => false
  | .deadline => false
  | .canceled => true
  | .rpc _ e => isCanceled e
  | .wrap e => isCanceled e
  | .join a b => isCanceled a || isCanceled b

/-- handlers.go:380-402.  `ErrCode` is a `uint16`, `Category` a `uint32`: the conversion cuts. -/
def errCode : Option Err → UInt16
  | none => 0
  | some e =>
    match asRpc e with
    | some (some cat) => cat.toUInt16
    | _ => if isDeadline e then 4 else if isCanceled e then 1 else 13

/-! ## Delivery on the client -/

/-- Messages of one session in the order in which the client's reader gets them.  `closeRecv`
is the second half of handling a Close: client.go:701-707 first puts the message into `closeCh`
and then closes `recvCh`. -/
inductive Msg where
  | payload (reqID : Nat) (data : Bytes) (endStream : Bool)
  | close (code : UInt16)
  | closeRecv
  deriving DecidableEq, Repr

/-- The channels of a client session (client.go:256-265).  The capacity of `recvCh` is not
modelled: it only restricts the interleavings. -/
structure Chans where
  inbox : List Msg
  recvQ : List (Nat × Bytes × Bool)
  recvClosed : Bool
  closeQ : Option UInt16
  deriving DecidableEq, Repr

/-- One step of the client's reader goroutine: client.go:691-708, :711-745. -/
def Chans.read (s : Chans) : Option Chans :=
  match s.inbox with
  | [] => none
  | .payload q d e :: rest => some { s with inbox := rest, recvQ := s.recvQ ++ [(q, d, e)] }
  | .close c :: rest =>
    some { s with inbox := .closeRecv :: rest, closeQ := s.closeQ.or (some c) }
  | .closeRecv :: rest => some { s with inbox := rest, recvClosed := true }

/-- The state of a loop over `Recv()` (client.go:1161-1217, context not cancelled, the loop body
takes every item). -/
structure Stream where
  ch : Chans
  items : List Bytes
  finished : Bool
  err : Option UInt16
  deriving DecidableEq, Repr

/-- client.go:1206-1214: the label `checkClose`. -/
def Stream.checkClose (s : Stream) : Stream :=
  match s.ch.closeQ with
  | some c => { s with finished := true, ch := { s.ch with closeQ := none },
                       err := if c ≠ 0 then some c else s.err }
  | none => { s with finished := true }

/-- One round of the loop, client.go:1188-1203; `none` when it blocks or has ended. -/
def Stream.next (s : Stream) : Option Stream :=
  if s.finished then none
  else
    match s.ch.recvQ with
    | (_, d, e) :: q =>
      let s := { s with ch := { s.ch with recvQ := q } }
      if e ∧ d.length = 0 then some s.checkClose
      else
        let s := { s with items := s.items ++ [d] }
        if e then some s.checkClose else some s
    | [] => if s.ch.recvClosed then some s.checkClose else none

/-- The reader goroutine and the consuming goroutine interleave freely. -/
inductive Stream.Step : Stream → Stream → Prop
  | read {s ch'} : s.ch.read = some ch' → Step s { s with ch := ch' }
  | next {s s'} : s.next = some s' → Step s s'

/-- Reachability. -/
inductive Steps {α : Type} (R : α → α → Prop) : α → α → Prop
  | refl (a) : Steps R a a
  | tail {a b c} : Steps R a b → R b c → Steps R a c

/-- The outcome of a synchronous call. -/
inductive Outcome where
  | waiting
  | reply (d : Bytes)
  /-- an error with this category -/
  | error (cat : UInt16)
  /-- the call panics -/
  | panic
  deriving DecidableEq, Repr

/-- A synchronous call waiting in its select, sync.go:66-97 (one call at a time on the session,
context not cancelled, connection open). -/
structure Call where
  ch : Chans
  reqID : Nat
  outcome : Outcome
  deriving DecidableEq, Repr

/-- Go picks any ready case of a select. Receiving from the closed `recvCh` gives a zero
`msgs.Payload`, whose `ReqID()` dereferences a nil pointer (sync.go:82-83, msgs.go:2449,
scalar.go:335, struct.go:511). -/
inductive Call.Step : Call → Call → Prop
  | read {s ch'} : s.ch.read = some ch' → Step s { s with ch := ch' }
  | close {s c} : s.outcome = .waiting → s.ch.closeQ = some c →
      Step s { s with ch := { s.ch with closeQ := none },
                      outcome := if c ≠ 0 then .error c else .error 14 }
  | recv {s q d e rest} : s.outcome = .waiting → s.ch.recvQ = (q, d, e) :: rest →
      Step s { s with ch := { s.ch with recvQ := rest },
                      outcome := if q = s.reqID then .reply d else .waiting }
  | recvClosed {s} : s.outcome = .waiting → s.ch.recvQ = [] → s.ch.recvClosed = true →
      Step s { s with outcome := .panic }

/-- What the server sends at the end of a stream handler (conn.go:398-411, :421-424). -/
def streamMsgs (items : List Bytes) (result : Option Err) : List Msg :=
  items.map (fun d => .payload 0 d false) ++ [.payload 0 [] true, .close (errCode result)]

/-- What the server sends when a synchronous handler fails (conn.go:496-526, :421-424). -/
def syncMsgs (result : Err) : List Msg := [.close (errCode (some result))]

end Claw.ErrCode
