import Verif.Model.Transport

/-!
# The HTTP server transport

`Handler.ServeHTTP` of `/repo/rpc/transport/http/server.go` and `serverTransport` of
`/repo/rpc/transport/http/conn.go`.
-/

namespace Claw.HttpServer

open Claw.Transport (upd Tid)

/-! ## Which requests are served -/

/-- conn.go:14-20. -/
def contentType : String := "application/x-claw-rpc"
def versionHeader : String := "X-Claw-Protocol-Version"
def version : String := "1.0"

/-- Header fields by canonical name, one value each (`Header.Get` reads the first one). -/
abbrev Header := List (String × String)

/-- `Header.Get`: empty when absent. -/
def Header.get (h : Header) (k : String) : String :=
  match h.find? fun x => x.1 == k with
  | some x => x.2
  | none => ""

/-- `Header.Set` and `req.Header[k] = v`. -/
def Header.set (h : Header) (k v : String) : Header := (k, v) :: h.filter fun x => x.1 != k

structure Req where
  method : String
  header : Header

/-- What the handler does: refuse with a status, or send status 200 with headers and serve. -/
inductive Answer where
  | refuse (status : Nat)
  | serve (header : Header)
  deriving DecidableEq, Repr

/-- server.go:53-79; `canFlush` says whether the response writer is an `http.Flusher`. -/
def serve (canFlush : Bool) (r : Req) : Answer :=
  if r.method ≠ "POST" then .refuse 405
  else if r.header.get "Content-Type" ≠ "" ∧ r.header.get "Content-Type" ≠ contentType then .refuse 415
  else if canFlush = false then .refuse 500
  else .serve ((Header.set [] "Content-Type" contentType).set versionHeader version)

/-- client.go:152-166: the request of the client with the headers of the configuration. -/
def clientReq (custom : Header) : Req where
  method := "POST"
  header := custom.foldl (fun h x => h.set x.1 x.2)
    ((Header.set [] "Content-Type" contentType).set versionHeader version)

/-- client.go:196-213: whether the client takes a response for a connection. -/
def clientTakes (status : Nat) (_header : Header) : Bool := status == 200

/-! ## The transport -/

inductive Op where
  | read
  | write (p : Bytes)
  | close
  deriving DecidableEq, Repr

inductive Ret where
  | ok
  | err
  | errClosedPipe
  deriving DecidableEq, Repr

/-- Where a goroutine is. -/
inductive PC where
  | idle
  /-- at `mu.Lock()` -/
  | call (op : Op)
  /-- inside `reader.Read`, conn.go:65 -/
  | rRead
  /-- inside `writer.Write` or `Flush`, holding `mu`, conn.go:76-84 -/
  | wPut (p : Bytes) (k : Nat)
  /-- `ServeHTTP` inside `server.Serve`, server.go:98 -/
  | serving
  /-- `ServeHTTP` at the `mu.Lock()` of its `Close`, server.go:102 -/
  | final
  deriving DecidableEq, Repr

/-- The transport of one request; goroutine 0 is the one in `ServeHTTP`. -/
structure St where
  mu : Option Tid
  closed : Bool
  closeErr : Ret
  /-- how often the request body was closed -/
  bodyCloses : Nat
  /-- whether `ServeHTTP` has returned -/
  returned : Bool
  /-- what was written to the response, and how much of it was flushed -/
  out : Bytes
  flushed : Nat
  /-- history: messages of the successful `Write` calls, in order; whether a `Write` has failed -/
  sent : List Bytes
  failed : Bool
  rets : Tid → List (Op × Ret)
  pc : Tid → PC

/-- server.go:82-98, conn.go:47-55. -/
def St.init : St where
  mu := none
  closed := false
  closeErr := .ok
  bodyCloses := 0
  returned := false
  out := []
  flushed := 0
  sent := []
  failed := false
  rets := fun _ => []
  pc := fun t => if t = 0 then .serving else .idle

def St.ret (s : St) (t : Tid) (op : Op) (r : Ret) : St :=
  { s with pc := upd s.pc t .idle, rets := upd s.rets t (s.rets t ++ [(op, r)]) }

/-- conn.go:89-101 `Close`, with `e` what closing the request body returns. -/
def St.close (s : St) (e : Ret) : St :=
  if s.closed then s
  else { s with closed := true, closeErr := e, bodyCloses := s.bodyCloses + 1 }

inductive Step : St → St → Prop
  | call {s t op} : s.pc t = .idle → t ≠ 0 → Step s { s with pc := upd s.pc t (.call op) }
  -- conn.go:57-66
  | read {s t} : s.pc t = .call .read → s.mu = none →
      Step s (if s.closed then s.ret t .read .errClosedPipe else { s with pc := upd s.pc t .rRead })
  | readEnd {s t r} : s.pc t = .rRead → r ≠ .errClosedPipe → Step s (s.ret t .read r)
  -- conn.go:68-87
  | write {s t p} : s.pc t = .call (.write p) → s.mu = none →
      Step s (if s.closed then s.ret t (.write p) .errClosedPipe
              else { s with mu := some t, pc := upd s.pc t (.wPut p 0) })
  | put {s t p k} (h : k < p.length) : s.pc t = .wPut p k →
      Step s { s with out := s.out ++ [p[k]], pc := upd s.pc t (.wPut p (k + 1)) }
  | putFail {s t p k} : s.pc t = .wPut p k → k < p.length →
      Step s { s.ret t (.write p) .err with mu := none, failed := true }
  | putOk {s t p} : s.pc t = .wPut p p.length →
      Step s { s.ret t (.write p) .ok with mu := none, flushed := s.out.length, sent := s.sent ++ [p] }
  | close {s t e} : s.pc t = .call .close → s.mu = none →
      Step s ((s.close e).ret t .close (s.close e).closeErr)
  -- server.go:98-102
  | served {s} : s.pc 0 = .serving → Step s { s with pc := upd s.pc 0 .final }
  | final {s e} : s.pc 0 = .final → s.mu = none →
      Step s { s.close e with returned := true, pc := upd s.pc 0 .idle }

inductive Steps : St → St → Prop
  | refl (s) : Steps s s
  | tail {a b c} : Steps a b → Step b c → Steps a c

def Reach (s : St) : Prop := Steps St.init s

end Claw.HttpServer
