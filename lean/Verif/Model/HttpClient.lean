import Verif.Model.Transport

/-!
# The HTTP client transport

`ClientTransport` of `/repo/rpc/transport/http/client.go`: any number of goroutines that call
`Read`, `Write`, `Close`, `Reconnect` and the state queries in any interleaving, with the requests
they send and the contexts they were given.

A *generation* is what the first critical section of `connect` makes: a pipe and a context
(client.go:144-147).  Every generation has one pipe and one context.

Simplifications.  `t.mu` is never held over a blocking statement, so a section that holds it is one
step.  `Reconnect` is a series of `connect` calls by the same goroutine (client.go:319-330).
`http.NewRequestWithContext` does not fail: the method is a constant, the URL was parsed by `Dial`
and the context is not nil.  The two reads of `t.ctx` and `t.pipeReader` in its arguments are one
step.  A request takes bytes from its body one at a time (the HTTP library reads into a buffer).
-/

namespace Claw.HttpClient

open Claw.Transport (upd Tid)

/-- A call of the API.  `connect c` is `Dial(c)` or one attempt of `Reconnect(c)`; `query` stands for
`Err`, `Connected` and the addresses (client.go:304-315, :333-345). -/
inductive Op where
  | read
  | write (p : Bytes)
  | close
  | connect (c : Nat)
  | query
  deriving DecidableEq, Repr

/-- What a call did.  `panic` is a nil dereference. -/
inductive Ret where
  | ok
  | err
  | errClosed
  | errNotConnected
  | panic
  deriving DecidableEq, Repr

/-- Where a goroutine is. -/
inductive PC where
  | idle
  /-- at the first `mu.Lock()` of a call -/
  | call (op : Op)
  /-- `connect` after its first section, client.go:149-152 -/
  | kReq (c : Nat)
  /-- request `r` is on its way, before the `select`, client.go:152-185 -/
  | kSel (c r : Nat)
  /-- in the `select`, waiting for context `g` or for request `r`, client.go:185-196 -/
  | kWait (c r g : Nat)
  /-- at the `mu.Lock()` of the branch for the context, client.go:187 -/
  | kDone (c : Nat)
  /-- at `return t.ctx.Err()`, client.go:190 -/
  | kRet (c : Nat)
  /-- at the `mu.Lock()` of a branch for a failed request, client.go:192, :201 -/
  | kFail (c : Nat)
  /-- at the `mu.Lock()` of the branch for an answer, client.go:207 -/
  | kSet (c r : Nat)
  /-- inside `resp.Body.Read`, client.go:256 -/
  | rRead (r : Nat)
  /-- at the `mu.Lock()` after a failed read, client.go:258 -/
  | rErr
  /-- inside `pipeWriter.Write`, before it got the pipe's own mutex, client.go:279 -/
  | wWant (g : Nat) (p : Bytes)
  /-- inside `pipeWriter.Write`; `k` bytes have been taken -/
  | wPut (g : Nat) (p : Bytes) (k : Nat)
  /-- at the `mu.Lock()` after a failed write, client.go:281 -/
  | wErr (p : Bytes)
  deriving DecidableEq, Repr

/-- What has become of a request. -/
inductive ReqSt where
  | pending
  | failed
  /-- a response with a status other than 200 -/
  | refused
  /-- a response with status 200 -/
  | ok
  deriving DecidableEq, Repr

structure St where
  closed : Bool
  connected : Bool
  /-- `pipeReader` and `pipeWriter`; they are set and cleared together -/
  pipe : Option Nat
  /-- `ctx`; nil (no generation yet) is `none` -/
  ctx : Option Nat
  cancel : Option Nat
  resp : Option Nat
  /-- whether `connErr` is not nil -/
  connErr : Bool
  /-- number of generations and of requests so far -/
  gens : Nat
  reqs : Nat
  /-- the caller's context a generation was made from -/
  parent : Nat → Nat
  /-- the caller's contexts that have ended -/
  ended : Nat → Bool
  /-- the contexts of generations that are done -/
  done : Nat → Bool
  /-- pipes that have been closed -/
  shut : Nat → Bool
  /-- who writes to a pipe (the `wrMu` of `io.Pipe`) -/
  writer : Nat → Option Tid
  /-- context, body (`none` is the nil pipe reader) and fate of a request -/
  reqCtx : Nat → Nat
  reqBody : Nat → Option Nat
  reqSt : Nat → ReqSt
  /-- response bodies that have been closed -/
  respShut : Nat → Bool
  /-- history: what each request took from its body, and what was taken from each pipe -/
  carried : Nat → Bytes
  piped : Nat → Bytes
  /-- history: the successful `Write` calls, with the pipe they wrote to -/
  sent : List (Nat × Bytes)
  /-- history: every message a `Write` began to write -/
  issued : List Bytes
  /-- history: what the calls of each goroutine returned -/
  rets : Tid → List (Op × Ret)
  /-- whether `Dial` has returned the transport to the caller -/
  handed : Bool
  /-- time since the beginning -/
  now : Nat
  pc : Tid → PC

/-- client.go:115-124: goroutine 0 is in `Dial`, about to connect, with context `c`. -/
def St.init (c : Nat) : St where
  closed := false
  connected := false
  pipe := none
  ctx := none
  cancel := none
  resp := none
  connErr := false
  gens := 0
  reqs := 0
  parent := fun _ => 0
  ended := fun _ => false
  done := fun _ => false
  shut := fun _ => false
  writer := fun _ => none
  reqCtx := fun _ => 0
  reqBody := fun _ => none
  reqSt := fun _ => .pending
  respShut := fun _ => false
  carried := fun _ => []
  piped := fun _ => []
  sent := []
  issued := []
  rets := fun _ => []
  handed := false
  now := 0
  pc := fun t => if t = 0 then .call (.connect c) else .idle

/-- Call `op` of goroutine `t` returns `r`. -/
def St.ret (s : St) (t : Tid) (op : Op) (r : Ret) : St :=
  { s with pc := upd s.pc t .idle, rets := upd s.rets t (s.rets t ++ [(op, r)]) }

/-- Set position `i`, if there is one, to true. -/
def mark (f : Nat → Bool) : Option Nat → Nat → Bool
  | none => f
  | some i => upd f i true

/-- client.go:218-240 `cleanupLocked`. -/
def St.cleanup (s : St) : St :=
  { s with connected := false
           done := mark s.done s.cancel, cancel := none
           shut := mark s.shut s.pipe, pipe := none
           respShut := mark s.respShut s.resp, resp := none }

/-- client.go:144-147: a new pipe and a new context below the caller's. -/
def St.newGen (s : St) (c : Nat) : St :=
  { s with pipe := some s.gens, ctx := some s.gens, cancel := some s.gens
           parent := upd s.parent s.gens c
           done := upd s.done s.gens (s.ended c)
           gens := s.gens + 1 }

/-- The first critical section of each call. -/
def St.enter (s : St) (t : Tid) : Op → St
  -- client.go:244-254
  | .read =>
    if s.closed then s.ret t .read .errClosed
    else if s.connected = false then s.ret t .read .errNotConnected
    else match s.resp with
      | none => s.ret t .read .panic
      | some r => { s with pc := upd s.pc t (.rRead r) }
  -- client.go:267-277
  | .write p =>
    if s.closed then s.ret t (.write p) .errClosed
    else if s.connected = false then s.ret t (.write p) .errNotConnected
    else match s.pipe with
      | none => s.ret t (.write p) .panic
      | some g => { s with issued := p :: s.issued, pc := upd s.pc t (.wWant g p) }
  -- client.go:290-300
  | .close =>
    if s.closed then s.ret t .close .ok
    else { s with closed := true }.cleanup.ret t .close .ok
  -- client.go:133-149
  | .connect c =>
    if s.closed then s.ret t (.connect c) .errClosed
    else { s.cleanup.newGen c with pc := upd s.pc t (.kReq c) }
  | .query => s.ret t .query .ok

/-- client.go:152: a request with the context and the body the fields hold now. -/
def St.request (s : St) (t : Tid) (c g : Nat) : St :=
  { s with reqCtx := upd s.reqCtx s.reqs g
           reqBody := upd s.reqBody s.reqs s.pipe
           reqSt := upd s.reqSt s.reqs .pending
           reqs := s.reqs + 1
           pc := upd s.pc t (.kSel c s.reqs) }

/-- One step of goroutine `t` inside a call. -/
inductive Run (t : Tid) : St → St → Prop
  | enter {s op} : s.pc t = .call op → Run t s (s.enter t op)
  -- connect
  | request {s c g} : s.pc t = .kReq c → s.ctx = some g → Run t s (s.request t c g)
  | select {s c r g} : s.pc t = .kSel c r → s.ctx = some g →
      Run t s { s with pc := upd s.pc t (.kWait c r g) }
  | ctxDone {s c r g} : s.pc t = .kWait c r g → s.done g = true →
      Run t s { s with pc := upd s.pc t (.kDone c) }
  | cleanDone {s c} : s.pc t = .kDone c →
      Run t s { s.cleanup with pc := upd s.pc t (.kRet c) }
  | retDone {s c g} : s.pc t = .kRet c → s.ctx = some g →
      Run t s (s.ret t (.connect c) (if s.done g then .err else .ok))
  | reqFailed {s c r g} : s.pc t = .kWait c r g → s.reqSt r = .failed →
      Run t s { s with pc := upd s.pc t (.kFail c) }
  | reqRefused {s c r g} : s.pc t = .kWait c r g → s.reqSt r = .refused →
      Run t s { s with respShut := upd s.respShut r true, pc := upd s.pc t (.kFail c) }
  | cleanFail {s c} : s.pc t = .kFail c → Run t s (s.cleanup.ret t (.connect c) .err)
  | reqOk {s c r g} : s.pc t = .kWait c r g → s.reqSt r = .ok →
      Run t s { s with pc := upd s.pc t (.kSet c r) }
  | set {s c r} : s.pc t = .kSet c r →
      Run t s ({ s with resp := some r, connected := true, connErr := false,
                        handed := true }.ret t (.connect c) .ok)
  -- Read
  | readOk {s r} : s.pc t = .rRead r → s.respShut r = false → Run t s (s.ret t .read .ok)
  | readFail {s r} : s.pc t = .rRead r → Run t s { s with pc := upd s.pc t .rErr }
  | readErr {s} : s.pc t = .rErr → Run t s ({ s with connErr := true }.ret t .read .err)
  -- Write
  | lock {s g p} : s.pc t = .wWant g p → s.writer g = none →
      Run t s { s with writer := upd s.writer g (some t), pc := upd s.pc t (.wPut g p 0) }
  | late {s g p} : s.pc t = .wWant g p → s.shut g = true →
      Run t s { s with pc := upd s.pc t (.wErr p) }
  | take {s g p k r} (h : k < p.length) : s.pc t = .wPut g p k → s.shut g = false →
      r < s.reqs → s.reqBody r = some g →
      Run t s { s with carried := upd s.carried r (s.carried r ++ [p[k]])
                       piped := upd s.piped g (s.piped g ++ [p[k]])
                       pc := upd s.pc t (.wPut g p (k + 1)) }
  | putFail {s g p k} : s.pc t = .wPut g p k → s.shut g = true →
      Run t s { s with writer := upd s.writer g none, pc := upd s.pc t (.wErr p) }
  | putOk {s g p} : s.pc t = .wPut g p p.length →
      Run t s ({ s with writer := upd s.writer g none,
                        sent := s.sent ++ [(g, p)] }.ret t (.write p) .ok)
  | writeErr {s p} : s.pc t = .wErr p →
      Run t s ({ s with connErr := true }.ret t (.write p) .err)

/-- A step of the whole: a goroutine begins a call or goes on with one, a request ends, a context of
a caller ends, time passes. -/
inductive Step : St → St → Prop
  | call {s t op} : s.pc t = .idle → s.handed = true →
      Step s { s with pc := upd s.pc t (.call op) }
  | run {s s' t} : Run t s s' → Step s s'
  | answer {s r q} : r < s.reqs → s.reqSt r = .pending → q ≠ .pending →
      Step s { s with reqSt := upd s.reqSt r q }
  | over {s c} : Step s { s with ended := upd s.ended c true
                                 done := fun g => s.done g || (decide (g < s.gens) && s.parent g == c) }
  | tick {s} : Step s { s with now := s.now + 1 }

/-- Any number of steps. -/
inductive Steps : St → St → Prop
  | refl (s) : Steps s s
  | tail {a b c} : Steps a b → Step b c → Steps a c

/-- The states after `Dial(c)` began. -/
def Reach (c : Nat) (s : St) : Prop := Steps (St.init c) s

/-- The goroutine is inside `connect`. -/
def PC.connecting : PC → Bool
  | .call (.connect _) | .kReq _ | .kSel _ _ | .kWait _ _ _ | .kDone _ | .kRet _ | .kFail _
  | .kSet _ _ => true
  | _ => false

/-- Steps in which no `connect` begins while another is going on. -/
inductive Alone : St → St → Prop
  | refl (s) : Alone s s
  | tail {a b c} : Alone a b → Step b c →
      (∀ t u op, b.pc t = .idle → c.pc t = .call op → PC.connecting (.call op) = true →
        (b.pc u).connecting = false) → Alone a c

/-- The requests whose context is not done: the connections that the HTTP library keeps up. -/
def St.live (s : St) (r : Nat) : Bool := decide (r < s.reqs) && !(s.done (s.reqCtx r))

/-- client.go:340-345 `Connected`. -/
def St.isConnected (s : St) : Bool := s.connected && !s.closed

end Claw.HttpClient
