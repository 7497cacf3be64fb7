import Verif.Model.Idl

/-!
# Keeping a client connection alive with pings

`/repo/rpc/client/client.go`: pingLoop 1218-1265, handlePong 748-756, markActivity 548-550, the part of readLoop 561-613 that is about
it, and New 351-365.

Simplifications.
* Time goes in instants, 0 being that of New. In each instant the messages of that instant are read first, then the ping loop does one
  thing. Goroutines are not kept waiting otherwise.
* Nobody else closes the connection or cancels its context.
* `late` says which case of the select is taken when the pong and the timeout are both there.
-/

namespace Claw.Alive

open Claw.Idl (Out)

inductive Msg where
  | pong
  /-- OpenAck, Close, Payload or one that is unknown; GoAway closes the connection and is left out -/
  | other
  deriving DecidableEq

/-- What becomes of a write to the transport. -/
inductive Write where
  | done
  | fails
  /-- it does not return, or another write that holds the lock does not -/
  | blocks
  deriving DecidableEq

inductive Phase where
  /-- at the select of 1223 -/
  | idle
  /-- in sendMsg (1245) -/
  | sending
  /-- at the select of 1251, for a ping sent then -/
  | waiting (since : Nat)
  /-- setFatalError has closed the connection -/
  | closed
  deriving DecidableEq

structure State where
  /-- lastActivity -/
  lastAct : Nat
  /-- is there something in pongCh, which has room for one? -/
  pong : Bool
  /-- is there something in ticker.C, which has room for one? -/
  tick : Bool
  phase : Phase
  /-- when pings were sent -/
  pings : List Nat
  deriving DecidableEq

/-- New (client.go 351-365). -/
def init : State := ⟨0, false, false, .idle, []⟩

/-- readLoop (client.go 577-613) for one message: markActivity, and handlePong for a pong. -/
def readMsg (now : Nat) (s : State) (m : Msg) : State :=
  { s with lastAct := now, pong := if m = .pong then true else s.pong }

/-- One turn of pingLoop (client.go 1222-1263). -/
def ping (interval timeout now : Nat) (w : Write) (late : Bool) (s : State) : State :=
  match s.phase with
  | .idle =>
    if s.tick then
      let s := { s with tick := false }
      if now - s.lastAct < interval then s
      else
        let s := { s with pong := false, pings := s.pings ++ [now] }
        match w with
        | .done => { s with phase := .waiting now }
        | .fails => { s with phase := .closed }
        | .blocks => { s with phase := .sending }
    else s
  | .sending => s
  | .waiting since =>
    if s.pong ∧ (now < since + timeout ∨ late = false) then { s with pong := false, phase := .idle }
    else if since + timeout ≤ now then { s with phase := .closed }
    else s
  | .closed => s

/-- What happens on a connection: what is read, what becomes of writes, and what a select prefers. -/
structure World where
  recv : Nat → List Msg
  write : Nat → Write
  late : Nat → Bool

/-- One instant. The ticker (1219) ticks at multiples of the interval; nothing is read once the connection is closed. -/
def step (interval timeout : Nat) (w : World) (now : Nat) (s : State) : State :=
  if s.phase = .closed then s
  else
    let s := { s with tick := if now % interval = 0 then true else s.tick }
    let s := (w.recv now).foldl (readMsg now) s
    ping interval timeout now (w.write now) (w.late now) s

/-- The state after the instant `n`. -/
def run (interval timeout : Nat) (w : World) : Nat → State
  | 0 => init
  | n + 1 => step interval timeout w (n + 1) (run interval timeout w n)

/-- pingLoop with time.NewTicker (1219), which panics for an interval that is not positive. -/
def pingLoop (interval timeout : Int) (w : World) (n : Nat) : Out State :=
  if interval ≤ 0 then .panic else .ok (run interval.toNat timeout.toNat w n)

/-- readLoop does not come back from handlePayload (client.go 741-744) after the instant `t`: what arrives is not read. -/
def stuck (t : Nat) (w : World) : World := { w with recv := fun n => if n ≤ t then w.recv n else [] }

end Claw.Alive
