import Verif.Model.Transport

/-!
# Listeners and servers over the stream transports

`Listener` and `Server` of `/repo/rpc/transport/tcp/server.go` (`/repo/rpc/transport/unix` the
same) and the socket file of the unix listener.
-/

namespace Claw.Listener

open Claw.Transport (upd)

/-- What an `Accept` call is doing. -/
inductive Caller where
  /-- in its select, server.go:94-105 -/
  | waiting
  /-- returned this connection -/
  | got (c : Nat)
  /-- returned an error -/
  | failed
  deriving DecidableEq, Repr

/-- A listener, the connections that have come in (numbered in the order in which they came) and
the server behind it. -/
structure St where
  /-- `l.closed`, and the listening socket is closed -/
  closed : Bool
  /-- connections the kernel holds, oldest first -/
  backlog : List Nat
  /-- number of connections that have come in -/
  next : Nat
  /-- `Accept` calls, numbered in the order in which they began; `none`: not begun -/
  caller : Nat → Option Caller
  /-- what the goroutine of each call has put into the channel, server.go:83-92; `some none` is an
  error -/
  chan : Nat → Option (Option Nat)
  /-- number of `Accept` calls begun -/
  begun : Nat
  /-- connections handed to `rpcServer.Serve`, server.go:341-343 -/
  served : List Nat
  /-- connections closed on this side -/
  shut : List Nat
  /-- `s.closed` of the server -/
  srvClosed : Bool

def St.init : St := ⟨false, [], 0, fun _ => none, fun _ => none, 0, [], [], false⟩

/-- server.go:109-119 `Listener.Close`: the kernel drops the connections nobody accepted. -/
def St.close (s : St) : St :=
  { s with closed := true, shut := s.shut ++ s.backlog, backlog := [] }

/-- server.go:367-378 `Server.Close`, also the first half of `Shutdown` (:352-361). -/
def St.srvClose (s : St) : St := { s.close with srvClosed := true }

/-- server.go:72-92: a call of `Accept` begins. -/
def St.start (s : St) : St :=
  if s.closed then
    { s with begun := s.begun + 1, caller := upd s.caller s.begun (some .failed),
             chan := upd s.chan s.begun (some none) }
  else { s with begun := s.begun + 1, caller := upd s.caller s.begun (some .waiting) }

/-- What `Accept` returns for a result, server.go:100-104. -/
def result : Option Nat → Caller
  | some c => .got c
  | none => .failed

/-- What can happen; contexts of `Accept` calls are cancelled only if `cancels`. -/
inductive Step (cancels : Bool) : St → St → Prop
  /-- a client connects -/
  | arrive {s} : s.closed = false →
      Step cancels s { s with backlog := s.backlog ++ [s.next], next := s.next + 1 }
  | start {s} : Step cancels s s.start
  /-- server.go:90: the goroutine of call `i` gets a connection -/
  | accept {s c rest} {i : Nat} : i < s.begun → s.chan i = none → s.backlog = c :: rest →
      Step cancels s { s with backlog := rest, chan := upd s.chan i (some (some c)) }
  /-- server.go:90: the listening socket is closed -/
  | acceptFail {s} {i : Nat} : i < s.begun → s.chan i = none → s.closed = true →
      Step cancels s { s with chan := upd s.chan i (some none) }
  /-- server.go:100-104: the call takes the result -/
  | take {s r} {i : Nat} : s.caller i = some .waiting → s.chan i = some r →
      Step cancels s { s with caller := upd s.caller i (some (result r)) }
  /-- server.go:95-99: the context of the call is cancelled -/
  | cancel {s} {i : Nat} : cancels = true → s.caller i = some .waiting →
      Step cancels s { s with caller := upd s.caller i (some .failed) }
  /-- server.go:341-343: the loop of `Serve` hands on what `Accept` returned -/
  | submit {s c} {i : Nat} : s.caller i = some (.got c) → c ∉ s.served →
      Step cancels s { s with served := s.served ++ [c] }
  /-- the handler of a connection ends and closes it -/
  | finish {s c} : c ∈ s.served → Step cancels s { s with shut := s.shut ++ [c] }
  | close {s} : Step cancels s s.close
  | srvClose {s} : Step cancels s s.srvClose

/-- Any number of steps. -/
inductive Steps (cancels : Bool) : St → St → Prop
  | refl (s) : Steps cancels s s
  | tail {a b c} : Steps cancels a b → Step cancels b c → Steps cancels a c

/-! ## The socket file -/

/-- What a path leads to. -/
inductive Node where
  /-- the socket of a listener, with its permission bits -/
  | socket (id : Nat) (mode : Nat)
  /-- any other file -/
  | other
  deriving DecidableEq, Repr

/-- The files and the listeners made so far (path, still open). -/
structure Fs where
  node : Nat → Option Node
  mine : List (Nat × Bool)

/-- unix/server.go:49-59: remove an existing socket. -/
def Fs.unlink (f : Fs) (path : Nat) (unlinkExisting : Bool) : Fs :=
  if unlinkExisting then
    match f.node path with
    | some (.socket _ _) => { f with node := upd f.node path none }
    | _ => f
  else f

/-- unix/server.go:61-65: `net.Listen("unix", path)` makes the socket with the permissions the
process mask leaves, and fails when the path exists. -/
def Fs.bind (f : Fs) (path umask : Nat) : Option Fs :=
  match f.node path with
  | some _ => none
  | none => some { node := upd f.node path (some (.socket f.mine.length (0o777 &&& (0o777 ^^^ umask)))),
                   mine := f.mine ++ [(path, true)] }

/-- unix/server.go:67-72: `os.Chmod(path, mode)`. -/
def Fs.chmod (f : Fs) (path mode : Nat) : Fs :=
  match f.node path with
  | some (.socket id _) => { f with node := upd f.node path (some (.socket id mode)) }
  | _ => f

/-- unix/server.go:43-79 `Listen`: the states the files go through, oldest first.  The
flag: `Listen` returned no error.  `os.Chmod` and `os.Remove` on files of one's own are assumed to
succeed. -/
def Fs.listen (f : Fs) (path umask mode : Nat) (unlinkExisting : Bool) : List Fs × Bool :=
  let g := f.unlink path unlinkExisting
  match g.bind path umask with
  | none => ([g], false)
  | some h => ([g, h, h.chmod path mode], true)

/-- unix/server.go:115-130 `Close` of listener `id`: the net package and `os.Remove` remove the
file at its path. -/
def Fs.close (f : Fs) (id : Nat) : Fs :=
  match f.mine[id]? with
  | some (path, true) => { node := upd f.node path none, mine := f.mine.set id (path, false) }
  | _ => f

/-- The files after `Listen`. -/
def Fs.after (f : Fs) (path umask mode : Nat) (unlinkExisting : Bool) : Fs :=
  ((f.listen path umask mode unlinkExisting).1.getLast?).getD f

end Claw.Listener
