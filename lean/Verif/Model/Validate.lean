import Verif.Model.Chain
import Verif.Model.ErrCode

/-!
# Validating interceptors

`/repo/rpc/validate/validate.go`.  A validator is an arbitrary function giving nil (`none`) or an
error.  So that "the handler is not called" can be said, results carry the list of payloads that
were passed on.
-/

namespace Claw.Validate

open Claw Claw.ErrCode

/-- validate.go:76-81. -/
abbrev Validator := Bytes → Option Err

/-- validate.go:92-97. -/
structure Registry where
  request : Dict Str Validator
  response : Dict Str Validator

/-- validate.go:100-105. -/
def Registry.new : Registry := ⟨Dict.empty, Dict.empty⟩

/-- validate.go:109-112. -/
def Registry.registerRequest (r : Registry) (pattern : Str) (v : Validator) : Registry :=
  { r with request := Dict.set r.request pattern v }

/-- validate.go:116-119. -/
def Registry.registerResponse (r : Registry) (pattern : Str) (v : Validator) : Registry :=
  { r with response := Dict.set r.response pattern v }

/-- validate.go:133, :140. -/
def pattern (pkg service method : Str) : Str := pkg ++ lit "/" ++ service ++ lit "/" ++ method

/-- validate.go:292-306: `fmt.Errorf("...%w")` on both paths. -/
def wrapValidationError (e : Err) : Err := .wrap e

/-- The payloads passed on, and the result. -/
structure Out where
  calls : List Bytes
  result : Except Err Bytes

/-- The common body of validate.go:145-168 and :239-265 once the validators are looked up. -/
def guard (reqV respV : Option Validator) (req : Bytes) (handler : Bytes → Except Err Bytes) : Out :=
  match reqV.bind (· req) with
  | some e => ⟨[], .error (wrapValidationError e)⟩
  | none =>
    match handler req with
    | .error e => ⟨[req], .error e⟩
    | .ok resp =>
      match respV.bind (· resp) with
      | some e => ⟨[req], .error (wrapValidationError e)⟩
      | none => ⟨[req], .ok resp⟩

/-- validate.go:144-168. -/
def unaryServer (r : Registry) (pkg service method : Str) (req : Bytes)
    (handler : Bytes → Except Err Bytes) : Out :=
  guard (r.request (pattern pkg service method)) (r.response (pattern pkg service method)) req handler

/-- The loop of validate.go:271-279: the parts between slashes. -/
def splitParts (start : Str) : Str → List Str
  | [] => [start]
  | c :: s => if c = Str.slash then start :: splitParts [] s else splitParts (start ++ [c]) s

/-- validate.go:268-290. -/
def parseMethod (method : Str) : Str × Str × Str :=
  match splitParts [] method with
  | [a, b, c] => (a, b, c)
  | [a, b] => ([], a, b)
  | [a] => ([], [], a)
  | _ => ([], [], [])

/-- validate.go:238-265. -/
def unaryClient (r : Registry) (method : Str) (req : Bytes)
    (invoker : Bytes → Except Err Bytes) : Out :=
  let (pkg, service, call) := parseMethod method
  guard (r.request (pattern pkg service call)) (r.response (pattern pkg service call)) req invoker

/-- validate.go:204-219: what `Recv` yields and the error kept afterwards. -/
def recv (v : Option Validator) : List Bytes → List Bytes × Option Err
  | [] => ([], none)
  | p :: ps =>
    match v.bind (· p) with
    | some e => ([], some (wrapValidationError e))
    | none => let (l, e) := recv v ps; (p :: l, e)

/-- validate.go:226-234: what reaches the wire, and the error returned. -/
def send (v : Option Validator) (p : Bytes) : List Bytes × Option Err :=
  match v.bind (· p) with
  | some e => ([], some (wrapValidationError e))
  | none => ([p], none)

/-- The dynamic type of the stream handed to a stream handler. -/
inductive SStream where
  | bidir | recvAdapter | sendAdapter
  | validating (inner : SStream)
  deriving DecidableEq, Repr

/-- server/conn.go:427-493: the stream created for a handler of each kind. -/
inductive Kind where
  | bidir | send | recv
  deriving DecidableEq, Repr

/-- server/conn.go:428, :464, :487. -/
def Kind.stream : Kind → SStream
  | .bidir => .bidir
  | .send => .recvAdapter
  | .recv => .sendAdapter

/-- server/conn.go:442-444, :465-467, :488-490: the type assertion before the handler runs; a
failed assertion panics. -/
def Kind.final (k : Kind) (handler : Option Err) : Chain.Handler Unit SStream (Res (Option Err)) :=
  fun _ s => if s = k.stream then .ok handler else .panic

/-- validate.go:172-193: wraps the stream and calls on. -/
def streamServer : Chain.Interceptor Unit SStream Unit (Res (Option Err)) :=
  fun c s _ next => next c (.validating s)

/-- server/conn.go:428-447 (and copies). -/
def runStream (k : Kind) (is : List (Chain.Interceptor Unit SStream Unit (Res (Option Err))))
    (handler : Option Err) : Res (Option Err) :=
  Chain.invoke (Chain.chain is) () k.stream () (k.final handler)

end Claw.Validate
