import Verif.Model.Retry

/-!
# Retries and hedges of a call on one synchronous client

`/repo/rpc/retry/retry.go` and `/repo/rpc/hedge/hedge.go` around `doCall` of `/repo/rpc/client/sync.go`, which works on
one session, against the loop of `runSyncHandler` in `/repo/rpc/server/conn.go`. C28 and C29 are about the interceptors
with an arbitrary invoker; here the invoker is the real one. Simplified: callers make one call after another, each
ends before the next begins, the connection stays up, the context of the caller ends at most in the waits between
attempts, and lengths of waits are left out (C28). The handler may answer each invocation differently. Errors are as
the client shows them.
-/

namespace Claw.Attempts

open Claw Claw.Retry

/-- What the function of the handler does with the `n`-th invocation in the session. -/
abbrev Script (E : Type) := Nat → Bytes → Outcome Bytes E

/-- A session: `live` while `runSyncHandler` loops and both ends have it in their tables; `note` is the content of
`closeCh` (client.go:272, one place); `calls` counts the invocations of the handler. When it is not live, `recvCh` of
the client is closed (client.go:707). -/
structure Link (E : Type) where
  live : Bool
  note : Option E
  calls : Nat

def Link.new {E : Type} : Link E := ⟨true, none, 0⟩

/-- What a call gives. -/
inductive Got (E : Type) where
  | reply (r : Bytes)
  | fail (e : E)
  | panic
  deriving DecidableEq, Repr

/-- sync.go:65-99, the select when the session has ended and nothing else is ready: `closeCh` if it holds something
(`pick` says which of the two is taken), or the closed `recvCh`, which gives a payload without a struct, whose `ReqID`
panics (sync.go:83, C60). -/
def Link.ended {E : Type} (l : Link E) (pick : Bool) : Link E × Got E :=
  match l.note with
  | some e => if pick then ({ l with note := none }, .fail e) else (l, .panic)
  | none => (l, .panic)

/-- sync.go:40-100 `doCall`. On a live session the request reaches the loop of conn.go:510-525: a reply is sent back
and the loop goes on; an error ends the loop (conn.go:519-521) and `runHandler` sends Close (conn.go:425-427), which the
client puts into `closeCh` before it closes `recvCh` (client.go:702-707). When the session has ended the server drops
the request (conn.go:548-550). -/
def Link.doCall {E : Type} (h : Script E) (pick : Bool) (l : Link E) (req : Bytes) : Link E × Got E :=
  if l.live then
    match h l.calls req with
    | .reply r => ({ l with calls := l.calls + 1 }, .reply r)
    | .fail e => Link.ended ⟨false, some e, l.calls + 1⟩ pick
  else l.ended pick

/-- What is up to chance: the picks of the selects, and whether the context ends in the wait after attempt `i`. -/
structure Luck (E : Type) where
  pick : Nat → Bool
  done : Nat → Bool
  ctxErr : E

/-- retry.go:64-90, with the counters of `Retry.loop`. -/
def retryLoop {E : Type} (p : Policy E) (h : Script E) (u : Luck E) (req : Bytes) :
    (left attempt : Nat) → Link E → Link E × Got E
  | left, attempt, l =>
    match l.doCall h (u.pick attempt) req with
    | (l, .reply r) => (l, .reply r)
    | (l, .panic) => (l, .panic)
    | (l, .fail e) =>
      if !p.retryable e then (l, .fail e)
      else match left with
        | 0 => (l, .fail e)
        | left + 1 => if u.done attempt then (l, .fail u.ctxErr) else retryLoop p h u req left (attempt + 1) l

/-- sync.go:28-37 `Call` with the interceptor of retry.go:47-92. -/
def retryCall {E : Type} (p : Policy E) (h : Script E) (u : Luck E) (l : Link E) (req : Bytes) : Link E × Got E :=
  if p.maxAttempts ≤ 0 then l.doCall h (u.pick 0) req else retryLoop p h u req p.maxAttempts.toNat 0 l

/-- Calls one after another. A caller that is told of a panic may have recovered. -/
def retryCalls {E : Type} (p : Policy E) (h : Script E) : List (Bytes × Luck E) → Link E → Link E × List (Got E)
  | [], l => (l, [])
  | (req, u) :: rest, l =>
    let (l, g) := retryCall p h u l req
    let (l, gs) := retryCalls p h rest l
    (l, g :: gs)

/-- conn.go:510-525: the loop handles the `k` hedges that were sent, one after another, until one fails. -/
def Link.hedges {E : Type} (h : Script E) (req : Bytes) : Nat → Link E → Link E
  | 0, l => l
  | k + 1, l =>
    match h l.calls req with
    | .reply _ => Link.hedges h req k { l with calls := l.calls + 1 }
    | .fail e => ⟨false, some e, l.calls + 1⟩

/-- conn.go:581-593 `handleCancel`: the session is removed whatever request the Cancel names; the loop ends without an
error and Close is sent (`closed`: what the client makes of it, sync.go:79). -/
def Link.cancel {E : Type} (closed : E) (l : Link E) : Link E := if l.live then { l with live := false, note := some closed } else l

/-- hedge.go:59-132 with `most` = `MaxHedgedRequests`, when `k` hedges have been sent by the time the original request
is answered, and `out` of them are still waiting when `cancel()` is called (hedge.go:117; `out ≤ k ≤ most`); each of
those sends Cancel (sync.go:69-71). If the original fails and that is not fatal (hedge.go:122-127) the interceptor waits
for all hedges, also those sent later: their requests are not handled any more, at most one of the `most + 1` attempts
finds the note of `closeCh`, and the others the closed channel. After a fatal error a waiting hedge may find the closed
channel before it sees the cancelled context, and panic as well; that is left out. -/
def hedgeCall {E : Type} (fatal : E → Bool) (closed : E) (h : Script E) (most k out : Nat) (pick : Bool) (l : Link E)
    (req : Bytes) : Link E × Got E :=
  if l.live then
    match h l.calls req with
    | .reply r =>
      let l := Link.hedges h req k { l with calls := l.calls + 1 }
      (if out = 0 then l else l.cancel closed, .reply r)
    | .fail e =>
      if most = 0 || fatal e then Link.ended ⟨false, some e, l.calls + 1⟩ pick
      else (⟨false, none, l.calls + 1⟩, .panic)
  else l.ended pick

/-- conn.go:510-525: when the requests of one session are answered, given when they arrive and how long the handler
takes for each; the loop is free at `t`. -/
def answered : Nat → List (Nat × Nat) → List Nat
  | _, [] => []
  | t, (arrive, takes) :: rest => (max t arrive + takes) :: answered (max t arrive + takes) rest

end Claw.Attempts
