import Verif.Model.GoStr

/-!
# The retry interceptor

`/repo/rpc/retry/retry.go`.  The server and the network are an arbitrary stream of outcomes,
one per call made; cancellation is an arbitrary choice at every wait (Go's `select` may take
either branch when both are ready).  Durations are integers; the floating point
multiplication `time.Duration(float64(backoff) * policy.Multiplier)` is an arbitrary function
on durations (Lean has no model of Go's float64).
-/

namespace Claw.Retry

open Claw

/-- What one call of the invoker returned: a response or an error. -/
inductive Outcome (R E : Type) where
  | reply (r : R)
  | fail (e : E)
  deriving DecidableEq, Repr

/-- retry.go:15-32.  `mul` stands for the multiplier; `retryable` is the function chosen at
retry.go:55-58. -/
structure Policy (E : Type) where
  maxAttempts : Int
  initialBackoff : Int
  maxBackoff : Int
  mul : Int → Int
  retryable : E → Bool

/-- What an observer of the wire and the clock sees. -/
inductive Ev (Q R E : Type) where
  /-- `invoker(ctx, req)` was called and returned. -/
  | call (req : Q) (out : Outcome R E)
  /-- The interceptor waited for a timer of this length. -/
  | wait (d : Int)
  deriving DecidableEq, Repr

/-- The environment of one intercepted call. -/
structure Env (R E : Type) where
  /-- outcome of the `i`-th call -/
  out : Nat → Outcome R E
  /-- did the context end the wait after the `i`-th call? -/
  done : Nat → Bool
  /-- `ctx.Err()` -/
  ctxErr : E

/-- The loop of retry.go:64-90.  `left` is `MaxAttempts - attempt`, so the guard
`attempt <= MaxAttempts` holds as long as the recursion runs, and `attempt < MaxAttempts` is
`left > 0`. -/
def loop {Q R E : Type} (p : Policy E) (env : Env R E) (req : Q) :
    (left attempt : Nat) → (backoff : Int) → List (Ev Q R E) × Outcome R E
  | left, attempt, backoff =>
    match env.out attempt with
    | .reply r => ([.call req (env.out attempt)], .reply r)             -- :66-68
    | .fail e =>
      if !p.retryable e then ([.call req (env.out attempt)], .fail e)   -- :70-72
      else match left with
        | 0 => ([.call req (env.out attempt)], .fail e)                 -- :76 false, :90
        | left + 1 =>
          if env.done attempt then                                      -- :78-79
            ([.call req (env.out attempt)], .fail env.ctxErr)
          else                                                          -- :80-87
            let next := if p.mul backoff > p.maxBackoff then p.maxBackoff else p.mul backoff
            let (t, res) := loop p env req left (attempt + 1) next
            (.call req (env.out attempt) :: .wait backoff :: t, res)

/-- retry.go:47-92, `UnaryClientInterceptor(policy)` applied to one call. -/
def intercept {Q R E : Type} (p : Policy E) (env : Env R E) (req : Q) :
    List (Ev Q R E) × Outcome R E :=
  if p.maxAttempts ≤ 0 then ([.call req (env.out 0)], env.out 0)        -- :48-52
  else loop p env req p.maxAttempts.toNat 0 p.initialBackoff

/-! ## The default classification, by text -/

/-- retry.go:95-135, as a function of `err.Error()` for a non-nil error. -/
def isRetryable (s : Str) : Bool :=
  if Str.contains s (lit "ErrDeadlineExceeded") then false
  else if Str.contains s (lit "ErrCanceled") then false
  else if Str.contains s (lit "ErrInvalidArgument") || Str.contains s (lit "ErrNotFound")
      || Str.contains s (lit "ErrAlreadyExists") || Str.contains s (lit "ErrPermissionDenied")
      || Str.contains s (lit "ErrUnauthenticated") || Str.contains s (lit "ErrUnimplemented")
  then false
  else Str.contains s (lit "ErrInternal") || Str.contains s (lit "ErrUnavailable")
    || Str.contains s (lit "ErrResourceExhausted") || Str.contains s (lit "ErrAborted")

/-- What the client builds from a Close message that carries an error code
(`/repo/rpc/client/sync.go:77-78`, `client.go:1209-1210`), as text: the code itself is kept
in the category and does not appear.  `errors.E` is taken to print the error it wraps (its
source, gostdlib, is not in `/repo`). -/
def closeErrorText (_code : Nat) (msg : Str) : Str := lit "server error: " ++ msg

end Claw.Retry
