import Verif.Model.ClientConn

/-!
# The two ends of a connection

A client connection (`Model/ClientConn`) and a server connection (`Model/ServerConn`) with a transport between them that delivers
what is written, in order. Each end writes a frame plain or packed (client.go:777-804, conn.go:613-641) and reads the next frame
plain or packed as its own flag `packingEnabled` says at that moment (client.go:575-597, conn.go:142-149). The flag is written by the
goroutine that reads, so it does not change while a read waits.

A frame that is read in the other form than it was written in is not understood: the reader takes bytes of the message for the sizes of a
pack header, or the pack header for the header of a message (`Model/Framing`). From there on the model says only that this has happened
(`lost`).
-/

namespace Claw.Packing

open Claw

structure Net where
  cli : CliConn.Conn
  srv : SrvConn.Conn
  /-- how many frames of the client the server has read -/
  up : Nat := 0
  /-- how many frames of the server the client has read -/
  down : Nat := 0
  /-- an end has read a frame in the wrong form -/
  lost : Bool := false
  deriving DecidableEq, Repr

/-- A frame of the client as the server sees it. Whether there is a handler for the method, whether the call has the right type, the
request number of a payload and whether the payload is thrown away are for the environment to say. -/
def toSrv (m : CliConn.Sent) (found typeOk dropped : Bool) (req : UInt32) : SrvConn.Frame :=
  match m with
  | .open o packing => .open o found typeOk packing
  | .payload sid p => .payload sid ⟨req, p.data⟩ dropped
  | .close sid => .close sid
  | .cancel sid => .cancel sid
  | .ping => .ping req

/-- A frame of the server as the client sees it. The server never sets EndStream. -/
def toCli (m : SrvConn.Sent) (dropped : Bool) (code : Nat) : CliConn.Frame :=
  match m with
  | .ack o sid ok packing => .ack o sid ok packing
  | .payload sid p => .payload sid ⟨p.data, false⟩ dropped
  | .close sid => .close sid code
  | .pong _ => .other
  | .goAway _ => .goAway

inductive Act where
  /-- something happens at the client that is not a read -/
  | cli (a : CliConn.Act)
  /-- something happens at the server that is not a read -/
  | srv (a : SrvConn.Act)
  /-- the server reads the next frame -/
  | srvRead (found typeOk dropped : Bool) (req : UInt32)
  /-- the client reads the next frame -/
  | cliRead (dropped : Bool) (code : Nat)
  deriving DecidableEq, Repr

def step (n : Net) (a : Act) : Option Net :=
  if n.lost then none
  else match a with
  | .cli (.read _) => none
  | .cli a => (CliConn.step n.cli a).map fun c => { n with cli := c }
  | .srv (.read _) => none
  | .srv a => (SrvConn.step n.srv a).map fun s => { n with srv := s }
  | .srvRead found typeOk dropped req =>
    match n.cli.out[n.up]? with
    | none => none
    | some (m, form) =>
      if n.srv.pc = .idle then
        if form = n.srv.packing then
          (SrvConn.step n.srv (.read (toSrv m found typeOk dropped req))).map fun s => { n with srv := s, up := n.up + 1 }
        else some { n with lost := true }
      else none
  | .cliRead dropped code =>
    match n.srv.out[n.down]? with
    | none => none
    | some (m, form) =>
      if n.cli.pc = .idle then
        if form = n.cli.packing then
          (CliConn.step n.cli (.read (toCli m dropped code))).map fun c => { n with cli := c, down := n.down + 1 }
        else some { n with lost := true }
      else none

def run : List Act → Net → Option Net
  | [], n => some n
  | a :: as, n => (step n a).bind (run as)

/-- A client that asks for packing or not and a server that allows it or not. -/
def init (use allow : Bool) (maxRPC : Nat) : Net := { cli := { usePacking := use }, srv := { allowPacking := allow, maxRPC := maxRPC } }

end Claw.Packing
