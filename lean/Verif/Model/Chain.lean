import Verif.Model.Res

/-!
# Interceptor chains

`/repo/rpc/interceptor/chain.go` and the options that install interceptors.

An interceptor is an arbitrary function of the context, the request, the information about the
call and the next handler.  The result type `ρ` is arbitrary as well, so effects of an
interceptor are covered by taking a result type that records them.  The four copies of the code
differ only in which of the arguments exist: the stream server chain has the stream as its
request; the client chains have the method name as their information, and the stream client
chain has no request (`Unit`).  A nil interceptor inside the list is not modelled.
-/

namespace Claw.Chain

variable {C R I ρ : Type}

/-- interceptor.go: `UnaryHandler`, `StreamHandler`, `UnaryInvoker`, `ClientStreamer`. -/
abbrev Handler (C R ρ : Type) := C → R → ρ

/-- interceptor.go: the four interceptor types. -/
abbrev Interceptor (C R I ρ : Type) := C → R → I → Handler C R ρ → ρ

/-- chain.go:22-29 (and :48-55, :74-81, :94-101): the handler from position `idx` on.  The code
compares `idx == len`, and never calls itself with a larger `idx`. -/
def chainHandler (is : List (Interceptor C R I ρ)) (idx : Nat) (info : I)
    (final : Handler C R ρ) : Handler C R ρ :=
  if h : idx < is.length then
    fun c r => is[idx] c r info (chainHandler is (idx + 1) info final)
  else final
termination_by is.length - idx

/-- chain.go:9-20 (and :35-46, :61-72, :87-92). `none` is the nil interceptor. -/
def chain (is : List (Interceptor C R I ρ)) : Option (Interceptor C R I ρ) :=
  match is with
  | [] => none
  | [i] => some i
  | _ :: _ :: _ => some fun c r info final => chainHandler is 0 info final c r

/-- Calling through an installed interceptor or directly: server/conn.go:513-517,
server/conn.go:429-446, client/sync.go:33-36. -/
def invoke (i : Option (Interceptor C R I ρ)) (c : C) (r : R) (info : I)
    (final : Handler C R ρ) : ρ :=
  match i with
  | none => final c r
  | some i => i c r info final

/-- The options that install interceptors. -/
inductive Opt (C R I ρ : Type) where
  /-- server.go:40-48, :52-60, client.go:115-123, :127-135: `WithUnaryInterceptor(is...)`,
  `WithStreamInterceptor(is...)` -/
  | withInterceptors (is : List (Interceptor C R I ρ))
  /-- client.go:138-148, :161-171: `WithRetry`, `WithHedging` -/
  | prepend (i : Interceptor C R I ρ)

/-- The effect of one option on the installed interceptor. -/
def applyOpt (cur : Option (Interceptor C R I ρ)) : Opt C R I ρ → Option (Interceptor C R I ρ)
  | .withInterceptors is =>
    match cur with
    | none => chain is
    | some e => chain (e :: is)
  | .prepend i =>
    match cur with
    | none => some i
    | some e => chain [i, e]

/-- The interceptor installed by a list of options, in order. -/
def install (opts : List (Opt C R I ρ)) : Option (Interceptor C R I ρ) :=
  opts.foldl applyOpt none

/-- client.go:1060-1168: opening a client stream.  The installed stream interceptor (the first
argument) is stored by the option and never used. -/
def openClientStream (_installed : Option (Interceptor C R I ρ)) (c : C) (r : R)
    (streamer : Handler C R ρ) : ρ := streamer c r

end Claw.Chain
