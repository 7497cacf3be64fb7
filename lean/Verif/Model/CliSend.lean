import Verif.Model.SrvStream

/-!
# The sending half of the streams of a client

`/repo/rpc/client/bidir.go`, `/repo/rpc/client/send.go` and `sendPayload`, `closeSession`, `sendCancel` and `sendMsg` of
`/repo/rpc/client/client.go`, for one stream and any number of goroutines that call its methods at the same time.

An action is what a goroutine does between two points where another one can run: the section under `b.mu`, the `select`,
a call of `sendMsg` (which holds `c.writeMu` throughout). Packing is left out (C42), compression too (C44).
-/

namespace Claw.CliSend

open Claw

/-- Calls of the methods of a stream. -/
inductive Op where
  | send (p : Bytes)
  | closeSend
  | close
  | cancel
  deriving DecidableEq, Repr

/-- Where a call is. -/
inductive Pc where
  /-- before the section under `b.mu` -/
  | start
  /-- `Send`, at the select (bidir.go 32-40, send.go 31-39) -/
  | sel
  /-- before `sendMsg` -/
  | write
  /-- `Close`, before `session.close()` (bidir.go 100, send.go 71) -/
  | shut
  /-- `Close`, before `closeSession` (bidir.go 101, send.go 72) -/
  | bye
  /-- returned; with no error? -/
  | ret (ok : Bool)
  deriving DecidableEq, Repr

/-- What is written for the session: a payload, a payload with EndStream (always empty), Close, Cancel. -/
inductive Frame where
  | data (p : Bytes)
  | fin
  | close
  | cancel
  deriving DecidableEq, Repr

structure Call where
  op : Op
  pc : Pc := .start
  deriving DecidableEq, Repr

/-- A stream: BiDirClient if `bidi`, else SendClient, with the connection as far as it matters to it. `wire` is what was
written for the session, each frame with the number of the call that wrote it; `ended` says that the Close of the server
was handled (client.go 691-708). -/
structure St where
  bidi : Bool
  calls : List Call := []
  closed : Bool := false
  sendDone : Bool := false
  cancelClosed : Bool := false
  connClosed : Bool := false
  ended : Bool := false
  wire : List (Nat × Frame) := []
  deriving DecidableEq, Repr

/-- What can happen. -/
inductive Act where
  /-- a method is called -/
  | call (op : Op)
  /-- call `i` goes on; `b`: at the select, its context has ended; at `sendMsg`, the write fails -/
  | go (i : Nat) (b : Bool := false)
  /-- client.go 691-708: the Close of the server is handled; neither the flags of the stream nor `cancelCh` change -/
  | srvClose
  /-- client.go 372-392 Conn.Close; `cancelCh` is closed if the session is still in the map -/
  | connClose
  deriving DecidableEq, Repr

/-- Call `i` is at `pc`. -/
def St.at (s : St) (i : Nat) (op : Op) (pc : Pc) : St := { s with calls := s.calls.set i ⟨op, pc⟩ }

/-- client.go 372-392 Conn.Close. -/
def St.connClose (s : St) : St :=
  if s.connClosed then s else { s with connClosed := true, cancelClosed := s.cancelClosed || !s.ended }

/-- client.go 767-805 sendMsg: the state after it and whether there was no error. A failing write closes the
connection. -/
def St.sendMsg (s : St) (i : Nat) (f : Frame) (fails : Bool) : St × Bool :=
  if s.connClosed then (s, false)
  else if fails then (s.connClose, false)
  else ({ s with wire := s.wire ++ [(i, f)] }, true)

/-- The section under `b.mu`: Send (bidir.go 25-30, send.go 24-29), CloseSend (bidir.go 62-68; there is none in send.go),
Close (bidir.go 93-98, send.go 61-66) and Cancel (bidir.go 80-85, send.go 48-53). -/
def St.enter (s : St) (i : Nat) (op : Op) : St :=
  match op with
  | .send _ => if s.closed || s.sendDone then s.at i op (.ret false) else s.at i op .sel
  | .closeSend =>
    if s.closed || s.sendDone then s.at i op (.ret true) else { s with sendDone := true }.at i op .write
  | .close =>
    if s.closed then s.at i op (.ret true)
    else { s with closed := true }.at i op (if s.bidi then .shut else .write)
  | .cancel => if s.closed then s.at i op (.ret true) else s.at i op .write

/-- `sendMsg` of the call: sendPayload (client.go 906-933), with `fits` for its check of the size, and sendCancel. The
result of the end of the stream that SendClient.Close sends is ignored (send.go 69). -/
def St.write (fits : Bytes → Bool) (s : St) (i : Nat) (op : Op) (fails : Bool) : St :=
  match op with
  | .send p =>
    if fits p then let r := s.sendMsg i (.data p) fails; r.1.at i op (.ret r.2) else s.at i op (.ret false)
  | .closeSend => let r := s.sendMsg i .fin fails; r.1.at i op (.ret r.2)
  | .close => (s.sendMsg i .fin fails).1.at i op .shut
  | .cancel => let r := s.sendMsg i .cancel fails; r.1.at i op (.ret r.2)

/-- One action; `none` if it cannot happen now. -/
def St.step (fits : Bytes → Bool) (s : St) : Act → Option St
  | .call op => if op = .closeSend ∧ s.bidi = false then none else some { s with calls := s.calls ++ [⟨op, .start⟩] }
  | .go i b =>
    match s.calls[i]? with
    | none => none
    | some ⟨op, pc⟩ =>
      match pc with
      | .start => some (s.enter i op)
      | .sel =>
        if b || s.connClosed || s.cancelClosed then some (s.at i op (.ret false)) else some (s.at i op .write)
      | .write => some (s.write fits i op b)
      | .shut => some ({ s with cancelClosed := true }.at i op .bye)
      | .bye => let r := s.sendMsg i .close b; some (r.1.at i op (.ret r.2))
      | .ret _ => none
  | .srvClose => if s.ended || s.connClosed then none else some { s with ended := true }
  | .connClose => some s.connClose

/-- A sequence of actions. -/
def St.run (fits : Bytes → Bool) (s : St) : List Act → Option St
  | [] => some s
  | a :: as => match s.step fits a with
    | none => none
    | some s' => s'.run fits as

/-- What the read loop of the server does with the frames of a session, in order (conn.go 529-593): payloads go into the
channel until Close or Cancel closes it and removes the session; later frames find none. -/
def arrivals : List Frame → List SrvStream.Pl
  | [] => []
  | .data p :: fs => ⟨p, false⟩ :: arrivals fs
  | .fin :: fs => ⟨[], true⟩ :: arrivals fs
  | .close :: _ => []
  | .cancel :: _ => []

end Claw.CliSend
