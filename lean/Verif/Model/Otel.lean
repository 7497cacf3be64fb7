import Verif.Model.Chain
import Verif.Model.ErrCode
import Verif.Model.RpcReflect

/-!
# The OpenTelemetry interceptors

`/repo/rpc/interceptor/otel/otel.go` and `config.go`.  A call is a function of the request that
gives the response, the error and the list of what happened, so that what the interceptor records
and what the handler does come in one order.  Durations are not modelled.
-/

namespace Claw.Otel

open Claw Claw.ErrCode Claw.RpcReflect

/-- config.go:44-60 `TraceRules`; `cidrs` is what `compile` fills in.  A Go map is a list of pairs
whose first match is taken. -/
structure Rules where
  ranges : List Str
  metadata : List (Str × Str)
  methods : List Str
  cidrs : List IPNet

/-- config.go:14-33. -/
structure Config where
  tracing : Bool
  metrics : Bool
  sizes : Bool
  rules : Option Rules

/-- config.go:63-77 `compile`. -/
def Rules.compile (p6 : Str → Option (Bytes × Str)) (r : Rules) : Option Rules := do
  let nets ← r.ranges.mapM (parseCIDR p6)
  return { r with cidrs := nets }

/-- config.go:80-96 `matchesIP`. -/
def Rules.matchesIP (p6 : Str → Option (Bytes × Str)) (r : Rules) (ip : Str) : Bool :=
  match parseIP p6 ip with
  | none => false
  | some a => r.cidrs.any fun n => n.contains a

/-- config.go:99-113 `matchesMetadata`. -/
def Rules.matchesMetadata (r : Rules) (md : List (Str × Bytes)) : Bool :=
  md.any fun (k, v) =>
    match r.metadata.lookup k with
    | some want => want == lit "*" || want == v
    | none => false

/-- `strings.HasSuffix`. -/
def hasSuffix (s p : Str) : Bool := p.isSuffixOf s

/-- config.go:116-131 `matchesMethod`. -/
def Rules.matchesMethod (r : Rules) (full : Str) : Bool :=
  r.methods.any fun m => m == full || hasSuffix full (lit "/" ++ m)

/-- config.go:134-140 `ShouldTrace`. -/
def shouldTrace (p6 : Str → Option (Bytes × Str)) (r : Option Rules) (ip full : Str)
    (md : List (Str × Bytes)) : Bool :=
  match r with
  | none => false
  | some r => r.matchesIP p6 ip || r.matchesMethod full || r.matchesMetadata md

/-- otel.go:33-52 `New`.  Making the instruments is assumed to succeed. -/
def New (p6 : Str → Option (Bytes × Str)) (c : Config) : Option Config :=
  match c.rules with
  | none => some c
  | some r => (r.compile p6).map fun r => { c with rules := some r }

/-- What happens during a call. -/
inductive Ev where
  /-- a span is begun; the flag says whether the sampler of the tracer takes it -/
  | span (name : Str) (sampled : Bool)
  | endSpan
  | requestSize (name : Str) (n : Nat)
  /-- the duration and the count of the call -/
  | count (name : Str) (ok : Bool)
  | responseSize (name : Str) (n : Nat)
  /-- something the handler does -/
  | user (n : Nat)
  deriving DecidableEq, Repr

/-- What a unary call gives. -/
structure Out where
  resp : Bytes
  err : Option Err
  evs : List Ev
  deriving DecidableEq, Repr

/-- The data of a call the interceptor can see. -/
structure Info where
  pkg : Str
  service : Str
  method : Str
  /-- what the sampler of the tracer says about the call -/
  sampled : Bool
  ip : Str
  metadata : List (Str × Bytes)

/-- otel.go:142. -/
def Info.full (i : Info) : Str := i.pkg ++ lit "/" ++ i.service ++ lit "/" ++ i.method

/-- `errors.E` of `/repo/languages/go/errors/errors.go`:103-111 with `CatInternal` of that package:
the same `Error` type, but its category is no `rpc/errors` category. -/
def wrapE (e : Err) : Err := .rpc none (.wrap e)

/-- otel.go:142-205 and :266-323: the body of the unary interceptors, which differ in the name
under which they record. -/
def unary (c : Config) (name : Str) (sampled : Bool) (handler : Bytes → Out) (req : Bytes) : Out :=
    let pre := (if c.tracing then [Ev.span name sampled] else []) ++
      (if c.metrics && c.sizes then [Ev.requestSize name req.length] else [])
    let out := handler req
    let post := (if c.metrics then
        [Ev.count name out.err.isNone] ++
          (if c.sizes then [Ev.responseSize name out.resp.length] else [])
      else []) ++ (if c.tracing then [Ev.endSpan] else [])
    { resp := out.resp, err := out.err.map wrapE, evs := pre ++ out.evs ++ post }

/-- otel.go:139-205 `UnaryServerInterceptor`. -/
def unaryServer (c : Config) : Chain.Interceptor Unit Bytes Info Out :=
  fun ctx req info handler => unary c info.full info.sampled (handler ctx) req

/-- otel.go:263-323 `UnaryClientInterceptor`; `sampled` as in `Info`. -/
def unaryClient (c : Config) (sampled : Bool) : Chain.Interceptor Unit Bytes Str Out :=
  fun ctx req method invoker => unary c method sampled (invoker ctx) req

/-- otel.go:208-262 `StreamServerInterceptor`: a stream handler has no response. -/
def streamServer (c : Config) : Chain.Interceptor Unit Bytes Info Out :=
  fun ctx stream info handler =>
    let name := info.full
    let pre := if c.tracing then [Ev.span name info.sampled] else []
    let out := handler ctx stream
    let post := (if c.metrics then [Ev.count name out.err.isNone] else []) ++
      (if c.tracing then [Ev.endSpan] else [])
    { resp := out.resp, err := out.err.map wrapE, evs := pre ++ out.evs ++ post }

end Claw.Otel
