import Verif.Model.Bytes

/-!
# The stream transports

`ClientTransport` and `ServerTransport` of `/repo/rpc/transport/tcp` (the ones of
`/repo/rpc/transport/unix` have the same locking and the same order of statements): any number
of goroutines that call `Read`, `Write`, `Close`, `Reconnect` and the state queries in any
interleaving.

Simplifications.  A section that holds one mutex, contains no blocking statement and takes no
second mutex is one step that needs the mutex to be free; this covers every use of `readMu`
(client.go:158-160, :182-184, :133-135).  `Reconnect` is a series of `connect` calls by the same
goroutine (client.go:290-292).  The connection either takes the next byte of a write, or fails
it, or does neither for as long as it likes.
-/

namespace Claw.Transport

/-! ## `bufio.Writer` -/

/-- `bufio.Writer` (Go standard library): bytes waiting, buffer size, whether an error has been
seen (it is never cleared). -/
structure BufW where
  buf : Bytes
  size : Nat
  failed : Bool
  deriving DecidableEq, Repr

/-- One `conn.Write(p)`: the connection takes `min n len(p)` bytes; fewer than all of them only
together with an error. -/
def connWrite (wire p : Bytes) (n : Nat) : Bytes × Bool :=
  (wire ++ p.take n, decide (n < p.length))

/-- `(*Writer).Flush`; `n` is what the connection takes. -/
def BufW.flush (b : BufW) (wire : Bytes) (n : Nat) : BufW × Bytes :=
  if b.failed then (b, wire)
  else if b.buf = [] then (b, wire)
  else
    let r := connWrite wire b.buf n
    if r.2 then ({ b with buf := b.buf.drop n, failed := true }, r.1)
    else ({ b with buf := [] }, r.1)

/-- `(*Writer).Write`: while the data does not fit, either hand it to the connection directly
(empty buffer) or fill the buffer and flush; the rest is copied into the buffer.  `ns` says what
the connection takes at each call; `fuel` bounds the loop. -/
def BufW.write (b : BufW) (wire p : Bytes) : List Nat → BufW × Bytes
  | [] =>
    if b.failed then (b, wire) else ({ b with buf := b.buf ++ p }, wire)
  | n :: ns =>
    if b.failed then (b, wire)
    else if p.length ≤ b.size - b.buf.length then ({ b with buf := b.buf ++ p }, wire)
    else if b.buf = [] then
      let r := connWrite wire p n
      if r.2 then ({ b with failed := true }, r.1) else (b, r.1)
    else
      let room := b.size - b.buf.length
      let r := { b with buf := b.buf ++ p.take room }.flush wire n
      r.1.write r.2 (p.drop room) ns

/-- client.go:223-241, server.go:197-207: `writer.Write(p)` and then, if it returned no error,
`writer.Flush()`.  The answer says whether the call succeeded. -/
def writeFlush (b : BufW) (wire p : Bytes) (n m : Nat) : BufW × Bytes × Bool :=
  let w := b.write wire p [n]
  if w.1.failed then (w.1, w.2, false)
  else
    let f := w.1.flush w.2 m
    (f.1, f.2, !f.1.failed)

/-! ## The transition system -/

/-- Which of the two transports. -/
inductive Mode where
  | client
  | server
  deriving DecidableEq, Repr

abbrev Tid := Nat

/-- A call of the API.  `query` stands for `Err`, `Connected`, `LocalAddr`, `RemoteAddr`
(client.go:260-307; they only lock `connMu`). -/
inductive Op where
  | read
  | write (p : Bytes)
  | close
  | connect
  | query
  deriving DecidableEq, Repr

/-- Where a goroutine is. -/
inductive PC where
  /-- not inside a call -/
  | idle
  /-- at the first `connMu.Lock()` of a call -/
  | call (op : Op)
  /-- `Read` between its check and fetching the reader, client.go:179-184 -/
  | rGet
  /-- `Read` inside `reader.Read` of connection `c`, client.go:190 -/
  | rRead (c : Nat)
  /-- `Read` at `connMu.Lock()` after an error, client.go:192 -/
  | rErr
  /-- `Write` at `writeMu.Lock()`, client.go:216 -/
  | wWant (p : Bytes)
  /-- `Write` inside `writer.Write` or `Flush`, holding `writeMu`; connection `c` has taken `k`
  bytes -/
  | wPut (c : Nat) (p : Bytes) (k : Nat)
  /-- `Write` at `connMu.Lock()` after an error, holding `writeMu`, client.go:225, :236 -/
  | wErr (p : Bytes)
  /-- `Close` at `writeMu.Lock()`, holding `connMu`, client.go:151, server.go:221 -/
  | cWait
  /-- `connect` cleaning up the old connection, at `writeMu.Lock()`, holding `connMu`,
  client.go:93, :151 -/
  | kWait
  /-- `connect` dialling, client.go:97-115 -/
  | kDial
  /-- `connect` at its last `writeMu.Lock()`, holding `connMu`, client.go:137 -/
  | kSet
  deriving DecidableEq, Repr

/-- What a finished call returned. -/
inductive Ret where
  | ok
  | err
  deriving DecidableEq, Repr

/-- The transport, the connections it has had (numbered from 0) and the goroutines. -/
structure St where
  connMu : Option Tid
  writeMu : Option Tid
  closed : Bool
  connected : Bool
  conn : Option Nat
  reader : Option Nat
  /-- the connection behind `writer` and whether the `bufio.Writer` has seen an error -/
  writer : Option (Nat × Bool)
  /-- how many connections have been made -/
  next : Nat
  /-- connections on which `Close` was called -/
  shut : Nat → Bool
  /-- what each connection has taken -/
  wire : Nat → Bytes
  /-- history: the `Write` calls that returned no error (connection, goroutine, message), in the
  order in which they returned -/
  sent : List (Nat × Tid × Bytes)
  /-- history: every message passed to `Write` by each goroutine -/
  issued : Tid → List Bytes
  /-- history: the finished calls of each goroutine and what they returned -/
  rets : Tid → List (Op × Ret)
  pc : Tid → PC

/-- Point update. -/
def upd {α : Type} (f : Nat → α) (t : Nat) (a : α) : Nat → α := fun u => if u = t then a else f u

/-- Call `op` of goroutine `t` returns `r`. -/
def St.ret (s : St) (t : Tid) (op : Op) (r : Ret) : St :=
  { s with pc := upd s.pc t .idle, rets := upd s.rets t (s.rets t ++ [(op, r)]) }

/-- client.go:58-82 after a successful `Dial`; server.go:148-155 `newServerTransport`. -/
def St.init : St where
  connMu := none
  writeMu := none
  closed := false
  connected := true
  conn := some 0
  reader := some 0
  writer := some (0, false)
  next := 1
  shut := fun _ => false
  wire := fun _ => []
  sent := []
  issued := fun _ => []
  rets := fun _ => []
  pc := fun _ => .idle

/-- client.go:145-165, the part after `writeMu` has been got (it is given back in the same
step): the flush finds an empty buffer or a failed writer (see `writeFlush_idle`). -/
def St.drop (s : St) : St :=
  match s.conn with
  | none => s
  | some c => { s with writer := none, reader := none, shut := upd s.shut c true, conn := none }

/-- The first critical section of each call, with `connMu` free. -/
def St.enter (m : Mode) (s : St) (t : Tid) : Op → St
  -- client.go:170-179, server.go:160-165
  | .read =>
    if s.closed ∨ s.connected = false then s.ret t .read .err
    else { s with pc := upd s.pc t .rGet }
  -- client.go:204-213, server.go:183-188
  | .write p =>
    if s.closed ∨ s.connected = false then s.ret t (.write p) .err
    else { s with pc := upd s.pc t (.wWant p) }
  -- client.go:247-254, server.go:212-221
  | .close =>
    if s.closed then s.ret t .close .ok
    else
      let s := { s with closed := true, connected := false }
      match s.conn with
      | none => s.ret t .close .ok
      | some _ => { s with connMu := some t, pc := upd s.pc t .cWait }
  -- client.go:86-94; the server transport has no such call
  | .connect =>
    if m = .server then s.ret t .connect .err
    else if s.closed then s.ret t .connect .err
    else
      let s := { s with connected := false }
      match s.conn with
      | none => { s with pc := upd s.pc t .kDial }
      | some _ => { s with connMu := some t, pc := upd s.pc t .kWait }
  | .query => s.ret t .query .ok

/-- One step of goroutine `t` inside a call.  `call` is not among them: it is `Step.call`. -/
inductive Run (m : Mode) (t : Tid) : St → St → Prop
  | enter {s op} : s.pc t = .call op → s.connMu = none → Run m t s (s.enter m t op)
  -- Read
  | fetch {s} : s.pc t = .rGet →
      Run m t s (match s.reader with
        | none => s.ret t .read .err
        | some c => { s with pc := upd s.pc t (.rRead c) })
  | readOk {s c} : s.pc t = .rRead c → s.shut c = false → Run m t s (s.ret t .read .ok)
  | readFail {s c} : s.pc t = .rRead c →
      Run m t s (if m = .server then s.ret t .read .err else { s with pc := upd s.pc t .rErr })
  | readErr {s} : s.pc t = .rErr → s.connMu = none → Run m t s (s.ret t .read .err)
  -- Write
  | lock {s p} : s.pc t = .wWant p → s.writeMu = none →
      Run m t s (match s.writer with
        | none => s.ret t (.write p) .err
        | some (c, false) => { s with writeMu := some t, pc := upd s.pc t (.wPut c p 0) }
        | some (_, true) =>
          if m = .server then s.ret t (.write p) .err
          else { s with writeMu := some t, pc := upd s.pc t (.wErr p) })
  | put {s c p k} (h : k < p.length) : s.pc t = .wPut c p k → s.shut c = false →
      Run m t s { s with wire := upd s.wire c (s.wire c ++ [p[k]]),
                         pc := upd s.pc t (.wPut c p (k + 1)) }
  | putFail {s c p k} : s.pc t = .wPut c p k → k < p.length →
      Run m t s
        (let s := { s with writer := s.writer.map fun (w : Nat × Bool) => (w.1, true) }
         if m = .server then { s.ret t (.write p) .err with writeMu := none }
         else { s with pc := upd s.pc t (.wErr p) })
  | putOk {s c p} : s.pc t = .wPut c p p.length →
      Run m t s { s.ret t (.write p) .ok with writeMu := none,
                                               sent := s.sent ++ [(c, t, p)] }
  | writeErr {s p} : s.pc t = .wErr p → s.connMu = none →
      Run m t s { s.ret t (.write p) .err with writeMu := none }
  -- Close
  | close {s} : s.pc t = .cWait → s.writeMu = none →
      Run m t s { s.drop.ret t .close .ok with connMu := none }
  -- connect
  | clean {s} : s.pc t = .kWait → s.writeMu = none →
      Run m t s { s.drop with connMu := none, pc := upd s.pc t .kDial }
  | dialFail {s} : s.pc t = .kDial → Run m t s (s.ret t .connect .err)
  | dialOk {s} : s.pc t = .kDial → s.connMu = none →
      Run m t s
        (if s.closed then
           { s.ret t .connect .err with next := s.next + 1, shut := upd s.shut s.next true }
         else { s with conn := some s.next, reader := some s.next, connected := true,
                       next := s.next + 1, connMu := some t, pc := upd s.pc t .kSet })
  | set {s} : s.pc t = .kSet → s.writeMu = none →
      Run m t s { s.ret t .connect .ok with connMu := none,
                                             writer := s.conn.map (fun c => (c, false)) }

/-- A step of the whole: a goroutine outside any call begins one, or one inside a call goes on. -/
inductive Step (m : Mode) : St → St → Prop
  | call {s t op} : s.pc t = .idle →
      Step m s { s with pc := upd s.pc t (.call op),
                        issued := match op with
                          | .write p => upd s.issued t (s.issued t ++ [p])
                          | _ => s.issued }
  | run {s s' t} : Run m t s s' → Step m s s'

/-- Any number of steps. -/
inductive Steps (m : Mode) : St → St → Prop
  | refl (s) : Steps m s s
  | tail {a b c} : Steps m a b → Step m b c → Steps m a c

/-- The states a transport can be in. -/
def Reach (m : Mode) (s : St) : Prop := Steps m St.init s

end Claw.Transport
