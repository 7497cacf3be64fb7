import Verif.Model.Retry

/-!
# The hedging interceptor

`/repo/rpc/hedge/hedge.go`.  One call runs `MaxHedgedRequests + 1` goroutines and the calling
goroutine; the model is a transition system whose steps are the blocking points of these
goroutines, so every schedule of starts, timers, completions and cancellations is a path.
Timers may fire in any order and at any time (a superset of what the increasing delays
allow).  `pool.Submit` is taken to run every function it is given.
-/

namespace Claw.Hedge

open Claw Claw.Retry

/-- Where the goroutine of one attempt is. -/
inductive Att (R E : Type) where
  /-- the original request, submitted and not yet started (:71-72) -/
  | ready
  /-- a hedge waiting for its delay (:84-88) -/
  | waiting
  /-- inside `invoker` (:72, :97) -/
  | running
  /-- `invoker` returned, at the final `select` (:73-76, :98-101) -/
  | finished (o : Outcome R E)
  /-- result sent to the channel -/
  | sent (o : Outcome R E)
  /-- returned without sending -/
  | gone
  deriving DecidableEq, Repr

/-- How the interceptor returned. -/
inductive Final (R E : Type) where
  | reply (r : R)        -- :118
  | fail (e : E)         -- :124, :131
  | ctxErr               -- :112
  | nilErr               -- :131 with `lastErr == nil`
  deriving DecidableEq, Repr

/-- State of one intercepted call.  `calls`, `outs` and `log` are history: which attempts
called the invoker, what they got, and what the caller took from the channel. -/
structure St (R E : Type) where
  att : List (Att R E)
  parentDone : Bool
  queue : List (Outcome R E)
  received : Nat
  lastErr : Option E
  result : Option (Final R E)
  calls : List Nat
  outs : List (Nat × Outcome R E)
  log : List (Outcome R E)
  deriving DecidableEq, Repr

/-- `hedgeCtx` is done when its parent is or when the interceptor returned (:66-67, :117,
:123). -/
def St.hedgeDone {R E : Type} (s : St R E) : Bool := s.parentDone || s.result.isSome

/-- :59-103, after all goroutines are submitted.  `n` is `MaxHedgedRequests`. -/
def init {R E : Type} (n : Nat) : St R E :=
  { att := .ready :: List.replicate n .waiting, parentDone := false, queue := [], received := 0
    lastErr := none, result := none, calls := [], outs := [], log := [] }

/-- What the caller does with a received result (:114-127). -/
def handle {R E : Type} (fatal : E → Bool) (s : St R E) (o : Outcome R E)
    (q : List (Outcome R E)) : St R E :=
  let s := { s with queue := q, received := s.received + 1, log := s.log ++ [o] }
  match o with
  | .reply r => { s with result := some (.reply r) }                    -- :116-119
  | .fail e =>
    if fatal e then { s with result := some (.fail e) }                 -- :122-125
    else { s with lastErr := some e }                                   -- :127

/-- One step of one goroutine. -/
inductive Step {R E : Type} (fatal : E → Bool) (n : Nat) : St R E → St R E → Prop where
  /-- :72, the original request is sent without looking at the context -/
  | begin (s) : s.att[0]? = some .ready →
      Step fatal n s { s with att := s.att.set 0 .running, calls := s.calls ++ [0] }
  /-- :87-97, the delay passed and the context is still live -/
  | fire (s i) : s.att[i]? = some .waiting → s.hedgeDone = false →
      Step fatal n s { s with att := s.att.set i .running, calls := s.calls ++ [i] }
  /-- :85-86, :92-93 -/
  | quit (s i) : s.att[i]? = some .waiting → s.hedgeDone = true →
      Step fatal n s { s with att := s.att.set i .gone }
  /-- the invoker returns -/
  | finish (s i o) : s.att[i]? = some .running →
      Step fatal n s { s with att := s.att.set i (.finished o), outs := s.outs ++ [(i, o)] }
  /-- :74, :99, when the buffered channel has room -/
  | send (s i o) : s.att[i]? = some (.finished o) → s.queue.length < n + 1 →
      Step fatal n s { s with att := s.att.set i (.sent o), queue := s.queue ++ [o] }
  /-- :75, :100 -/
  | drop (s i o) : s.att[i]? = some (.finished o) → s.hedgeDone = true →
      Step fatal n s { s with att := s.att.set i .gone }
  /-- the caller's context ends -/
  | cancel (s) : Step fatal n s { s with parentDone := true }
  /-- :113-127 -/
  | recv (s o q) : s.result = none → s.received < n + 1 → s.queue = o :: q →
      Step fatal n s (handle fatal s o q)
  /-- :111-112 -/
  | ctxEnd (s) : s.result = none → s.received < n + 1 → s.parentDone = true →
      Step fatal n s { s with result := some .ctxErr }
  /-- :109 false, :131 -/
  | exhausted (s) : s.result = none → ¬ s.received < n + 1 →
      Step fatal n s { s with result := some (match s.lastErr with
        | some e => .fail e
        | none => .nilErr) }

/-- States some schedule reaches. -/
inductive Reach {R E : Type} (fatal : E → Bool) (n : Nat) : St R E → Prop where
  | start : Reach fatal n (init n)
  | step {s t} : Reach fatal n s → Step fatal n s t → Reach fatal n t

/-- Names of the codes that are always fatal (:151-160). -/
def fatalNames : List String :=
  ["ErrInvalidArgument", "ErrNotFound", "ErrAlreadyExists", "ErrPermissionDenied",
   "ErrUnauthenticated", "ErrUnimplemented", "ErrDeadlineExceeded", "ErrCanceled"]

/-- :137-181 as a function of `err.Error()` for a non-nil error; `nonFatal` are the names of
`policy.NonFatalCodes`. -/
def isFatal (nonFatal : List Str) (s : Str) : Bool :=
  if Str.contains s (lit "context canceled") || Str.contains s (lit "context deadline exceeded")
  then true
  else if fatalNames.any fun n => Str.contains s (lit n) then true
  else if nonFatal.length > 0 then
    if nonFatal.any fun n => Str.contains s n then false else true
  else false

end Claw.Hedge
