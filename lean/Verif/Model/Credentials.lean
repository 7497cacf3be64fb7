import Verif.Model.Metadata

/-!
# Per-call credentials

`/repo/rpc/credentials/credentials.go` and `applyCredentials` of `/repo/rpc/client/client.go`.
The metadata maps live in the heap of `Model/Metadata`, because a map given by the caller is
changed in place.
-/

namespace Claw.Credentials

open Claw Claw.Metadata

/-- A `map[string]string`: its entries, keys distinct. -/
abbrev SMap := List (Str × Str)

/-- `m[k] = v`. -/
def SMap.put : SMap → Str → Str → SMap
  | [], k, v => [(k, v)]
  | e :: m, k, v => if e.1 = k then (k, v) :: m else e :: put m k v

/-- `m[k]` with its presence. -/
def SMap.look (m : SMap) (k : Str) : Option Str := (m.find? fun e => e.1 = k).map (·.2)

/-- Everything that implements `PerRPCCredentials` in the package, and arbitrary others. -/
inductive Cred where
  /-- credentials.go:10-27: the token as stored -/
  | token (token : Str) (secure : Bool)
  /-- credentials.go:55-67; `tok` is what the source returns, `none` an error -/
  | source (tok : Option Str) (tokenType : Str) (secure : Bool)
  /-- credentials.go:95-109 -/
  | apiKey (headerName apiKey : Str) (secure : Bool)
  /-- another implementation: its answer, `none` an error -/
  | custom (md : Option SMap) (secure : Bool)
  /-- credentials.go:124-144 -/
  | composite (cs : List Cred)

/-- credentials.go:18-27. -/
def newToken (tokenType token : Str) (secure : Bool) : Cred :=
  .token (if tokenType ≠ [] then tokenType ++ lit " " ++ token else token) secure

mutual
/-- `RequireTransportSecurity`, credentials.go:37-39, :88-90, :119-121, :159-161. -/
def requireSecurity : Cred → Bool
  | .token _ s => s
  | .source _ _ s => s
  | .apiKey _ _ s => s
  | .custom _ s => s
  | .composite cs => requireAny cs
/-- The loop of credentials.go:134-139. -/
def requireAny : List Cred → Bool
  | [] => false
  | c :: cs => if requireSecurity c then true else requireAny cs
end

/-- The loop of credentials.go:150-152. -/
def merge (result md : SMap) : SMap := md.foldl (fun r e => r.put e.1 e.2) result

mutual
/-- `GetRequestMetadata`, credentials.go:30-34, :70-85, :112-116, :145-156.  The first component
counts how many basic credentials were asked. -/
def getMD : Cred → Nat × Option SMap
  | .token t _ => (1, some [(lit "authorization", t)])
  | .source tok ty _ =>
    match tok with
    | none => (1, none)
    | some t => (1, some [(lit "authorization", if ty ≠ [] then ty ++ lit " " ++ t else t)])
  | .apiKey h k _ => (1, some [(h, k)])
  | .custom md _ => (1, md)
  | .composite cs => getAll [] cs
/-- The loop of credentials.go:146-154. -/
def getAll (result : SMap) : List Cred → Nat × Option SMap
  | [] => (0, some result)
  | c :: cs =>
    match getMD c with
    | (n, none) => (n, none)
    | (n, some md) =>
      let (n', r) := getAll (merge result md) cs
      (n + n', r)
end

/-- The result of `applyCredentials`. -/
inductive Result where
  /-- `ErrInsecureTransport`, before anything is asked or sent -/
  | insecure
  /-- a credential failed -/
  | failed
  /-- the metadata to send: a map id, or nil -/
  | ok (md : Option Nat)
  deriving DecidableEq, Repr

/-- client.go:947-950. -/
def baseMD (optMD : Option Nat) (ctx : Ctx) : Option Nat :=
  match optMD with
  | some m => some m
  | none =>
    match ctx with
    | some (some m) => some m
    | _ => none

/-- client.go:946-978.  `optMD` is the metadata option (nil is `none`), `ctx` the metadata of the
context, `order` the order in which Go ranges over the credential's map. -/
def applyCredentials (low : Str → Str) (order : SMap → SMap) (h : Heap) (secure : Bool)
    (optMD : Option Nat) (ctx : Ctx) (creds : Option Cred) : Heap × Nat × Result :=
  let md := baseMD optMD ctx
  match creds with
  | none => (h, 0, .ok md)
  | some c =>
    if requireSecurity c ∧ ¬ secure then (h, 0, .insecure)
    else
      match getMD c with
      | (n, none) => (h, n, .failed)
      | (n, some credMD) =>
        if credMD.length > 0 then
          match md with
          | none => (h.newMap.setPairs low h.maps.length (order credMD), n, .ok (some h.maps.length))
          | some m => (h.setPairs low m (order credMD), n, .ok (some m))
        else (h, n, .ok md)

/-- client.go:1030-1036 and its three copies, followed by :852-855: the metadata that goes out in
the Open message, `none` when the call fails before anything is sent. -/
def openMetadata (low : Str → Str) (order : SMap → SMap) (h : Heap) (secure : Bool)
    (optMD : Option Nat) (ctx : Ctx) (creds : Option Cred) : Option (Dict Str Bytes) :=
  match applyCredentials low order h secure optMD ctx creds with
  | (h', _, .ok (some m)) => some (h'.view m)
  | (_, _, .ok none) => some Dict.empty
  | _ => none

end Claw.Credentials
