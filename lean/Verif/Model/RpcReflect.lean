import Verif.Model.Registry
import Verif.Model.Idl
import Verif.Model.ModFile

/-!
# The RPC reflection service

`/repo/rpc/reflection/config.go`, `/repo/rpc/reflection/service.go`, and the address an HTTP
connection is given in `/repo/rpc/transport/http/server.go`.  The parts of Go's `net` used here
are modelled too; the reading of IPv6 texts is a parameter `p6` giving the 16 bytes and the zone.
`strings.ToLower` is a parameter `low`.  Requests and responses are the decoded structs: their
wire form is that of every claw struct (C04).
-/

namespace Claw.RpcReflect

open Claw Idl

/-! ## Go's `net` -/

/-- `net.v4InV6Prefix`. -/
def v4Prefix : Bytes := [0, 0, 0, 0, 0, 0, 0, 0, 0, 0, 255, 255]

/-- `IP.To4`. -/
def to4 (b : Bytes) : Option Bytes :=
  if b.length = 4 then some b
  else if b.length = 16 ∧ b.take 12 = v4Prefix then some (b.drop 12)
  else none

/-- One byte of `net.CIDRMask`: `n` leading ones. -/
def maskByte (n : Nat) : UInt8 := ~~~((0xff : UInt8) >>> n.toUInt8)

/-- `net.CIDRMask(n, 8 * len)`. -/
def cidrMask (n : Nat) : Nat → Bytes
  | 0 => []
  | len + 1 => if 8 ≤ n then 0xff :: cidrMask (n - 8) len else maskByte n :: cidrMask 0 len

/-- The bytes of `IP.Mask` once the lengths agree. -/
def andBytes (a m : Bytes) : Bytes := a.zipWith (· &&& ·) m

/-- `net.IPNet`. -/
structure IPNet where
  ip : Bytes
  mask : Bytes
  deriving DecidableEq, Repr

/-- `networkNumberAndMask`; `none` stands for the nil pair. -/
def netAndMask (n : IPNet) : Option (Bytes × Bytes) :=
  match to4 n.ip with
  | some ip =>
    if n.mask.length = 4 then some (ip, n.mask)
    else if n.mask.length = 16 then some (ip, n.mask.drop 12) else none
  | none =>
    if n.ip.length = 16 then
      if n.mask.length = 16 then some (n.ip, n.mask) else none
    else none

/-- `IPNet.Contains`. -/
def IPNet.contains (n : IPNet) (ip : Bytes) : Bool :=
  match netAndMask n with
  | none => ip.isEmpty
  | some (nn, m) =>
    let ip := (to4 ip).getD ip
    ip.length == nn.length && andBytes nn m == andBytes ip m

/-- The value of a field of dotted IPv4: one to three digits, no leading zero, at most 255. -/
def octet (s : Str) : Option UInt8 :=
  if s.isEmpty || s.any (fun c => c < 48 || 57 < c) || (s.head? == some 48 && s.length != 1) ||
      3 < s.length then none
  else
    let v := s.foldl (fun v c => v * 10 + (c.toNat - 48)) 0
    if v ≤ 255 then some v.toUInt8 else none

/-- `netip.parseIPv4`. -/
def parse4 (s : Str) : Option Bytes :=
  match Mod.splitBy 46 s with
  | [a, b, c, d] => do return [← octet a, ← octet b, ← octet c, ← octet d]
  | _ => none

/-- `netip.ParseAddr`: 4 or 16 bytes, and the zone. -/
def parseAddr (p6 : Str → Option (Bytes × Str)) (s : Str) : Option (Bytes × Str) :=
  match s.find? fun c => c == 46 || c == 58 || c == 37 with
  | some 46 => (parse4 s).map fun b => (b, [])
  | some 58 => p6 s
  | _ => none

/-- `As16`. -/
def as16 (b : Bytes) : Bytes := if b.length = 4 then v4Prefix ++ b else b

/-- `net.ParseIP`: a zone is refused. -/
def parseIP (p6 : Str → Option (Bytes × Str)) (s : Str) : Option Bytes :=
  match parseAddr p6 s with
  | some (b, []) => some (as16 b)
  | _ => none

/-- `net.dtoi` with all of the text read. -/
def dtoi (s : Str) : Option Nat :=
  if s.isEmpty || s.any (fun c => c < 48 || 57 < c) then none
  else
    let v := s.foldl (fun v c => v * 10 + (c.toNat - 48)) 0
    if v < 0xFFFFFF then some v else none

/-- `strings.Cut(s, "/")`. -/
def cutSlash : Str → Option (Str × Str)
  | [] => none
  | c :: s => if c = Str.slash then some ([], s) else (cutSlash s).map fun p => (c :: p.1, p.2)

/-- The address and prefix length of a CIDR text. -/
def cidrParts (p6 : Str → Option (Bytes × Str)) (s : Str) : Option (Bytes × Nat) := do
  let (addr, mask) ← cutSlash s
  match ← parseAddr p6 addr with
  | (b, []) =>
    let n ← dtoi mask
    if n ≤ 8 * b.length then some (b, n) else none
  | _ => none

/-- `net.ParseCIDR`, the network.  `IP.Mask` gives 4 bytes for a 4 byte mask. -/
def parseCIDR (p6 : Str → Option (Bytes × Str)) (s : Str) : Option IPNet :=
  (cidrParts p6 s).map fun (b, n) =>
    let m := cidrMask n b.length
    ⟨andBytes b m, m⟩

/-- Position of the last `c`. -/
def lastIndex (c : UInt8) : Str → Option Nat
  | [] => none
  | x :: s =>
    match lastIndex c s with
    | some i => some (i + 1)
    | none => if x = c then some 0 else none

/-- `net.SplitHostPort`, the host. -/
def splitHost (s : Str) : Option Str :=
  match lastIndex 58 s with
  | none => none
  | some i =>
    if s.head? = some 91 then
      match s.findIdx? (· == 93) with
      | none => none
      | some e =>
        if e + 1 = s.length then none
        else if e + 1 ≠ i then none
        else if 91 ∈ s.drop 1 then none
        else if 93 ∈ s.drop (e + 1) then none
        else some ((s.take e).drop 1)
    else if 58 ∈ s.take i then none
    else if 91 ∈ s then none
    else if 93 ∈ s then none
    else some (s.take i)

/-! ## Access -/

/-- A `net.Addr`: one of the three kinds that hold an IP, or any other by its text. -/
inductive Addr
  | ip (b : Option Bytes)
  | other (s : Str)
  deriving DecidableEq, Repr

/-- service.go:65-81. -/
def extractIP (p6 : Str → Option (Bytes × Str)) : Addr → Option Bytes
  | .ip b => b
  | .other s =>
    match splitHost s with
    | none => parseIP p6 s
    | some host => parseIP p6 host

/-- config.go:115-128.  The validator answers whether it returned a nil error. -/
structure Config where
  allowed : List Str
  header : Str
  validator : Option (Str → Bool)

/-- config.go:130, after `Validate`. -/
structure Valid where
  nets : List IPNet
  header : Str
  validator : Option (Str → Bool)

/-- config.go:136-156; `none` for the error. -/
def Config.validate (p6 : Str → Option (Bytes × Str)) (c : Config) : Option Valid := do
  let nets ← c.allowed.mapM (parseCIDR p6)
  return ⟨nets, if c.header = [] then lit "authorization" else c.header, c.validator⟩

/-- config.go:160-175. -/
def Valid.isIPAllowed (v : Valid) (ip : Bytes) : Bool :=
  if v.nets.isEmpty then true else v.nets.any (·.contains ip)

/-- service.go:84-92. -/
def findMetadata (low : Str → Str) (md : List (Str × Bytes)) (key : Str) : Bytes :=
  match md.find? fun m => low m.1 == low key with
  | some m => m.2
  | none => []

/-- What a reflection call begins with: the check passed, or the error. -/
inductive Access
  | granted
  | ipNotAllowed
  | invalidToken
  deriving DecidableEq, Repr

/-- service.go:44-51, the condition; `remote` is `none` when the context has no address. -/
def refusedIP (p6 : Str → Option (Bytes × Str)) (v : Valid) (remote : Option Addr) : Bool :=
  match remote with
  | none => false
  | some a =>
    match extractIP p6 a with
    | none => false
    | some ip => !v.isIPAllowed ip

/-- service.go:43-62. -/
def checkAccess (p6 : Str → Option (Bytes × Str)) (low : Str → Str) (v : Valid)
    (remote : Option Addr) (md : List (Str × Bytes)) : Access :=
  if refusedIP p6 v remote then .ipNotAllowed
  else
    match v.validator with
    | none => .granted
    | some f => if f (findMetadata low md v.header) then .granted else .invalidToken

/-- transport/http/server.go:127-137: `xff` is the first value of the header `X-Forwarded-For`
of the request, empty if there is none, `peer` the address of the connection. -/
def httpRemote (xff peer : Str) : Addr :=
  if xff ≠ [] then .other xff
  else
    match splitHost peer with
    | none => .other peer
    | some host => .other host

/-! ## Listing -/

/-- server/registry.go:67-72 with the type as a number. -/
structure Info where
  pkg : Str
  service : Str
  call : Str
  type : Nat
  deriving DecidableEq, Repr

/-- reflection.claw `MethodInfo`. -/
structure Method where
  name : Str
  type : Nat
  deriving DecidableEq, Repr

/-- reflection.claw `ServiceInfo`. -/
structure Service where
  name : Str
  methods : List Method
  deriving DecidableEq, Repr

/-- reflection.claw `PackageInfo`. -/
structure Package where
  name : Str
  services : List Service
  deriving DecidableEq, Repr

/-- service.go:113-115: a package entry is its map of services. -/
abbrev PkgMap := List (Str × List (Str × List Method))

/-- service.go:119-136, one handler. -/
def addInfo (m : PkgMap) (i : Info) : PkgMap :=
  let svcs := (assocGet i.pkg m).getD []
  let ms := (assocGet i.service svcs).getD []
  assocSet i.pkg (assocSet i.service (ms ++ [⟨i.call, i.type⟩]) svcs) m

/-- service.go:117-136; `hs` are the handlers in the order the registry's map is visited. -/
def collect (hs : List Info) : PkgMap := hs.foldl addInfo []

/-- `sort.Strings` and the comparison of service.go:164-166, 227-229. -/
def sortMethods (ms : List Method) : List Method := sortBy (fun a b => strLe a.name b.name) ms

/-- service.go:152-176. -/
def buildServices (svcs : List (Str × List Method)) : List Service :=
  (sortBy strLe (svcs.map (·.1))).map fun n =>
    ⟨n, sortMethods ((assocGet n svcs).getD [])⟩

/-- service.go:138-179. -/
def listServices (hs : List Info) : List Package :=
  let m := collect hs
  (sortBy strLe (m.map (·.1))).map fun n => ⟨n, buildServices ((assocGet n m).getD [])⟩

/-- service.go:195-240: `none` when `Found` is false. -/
def getServiceInfo (hs : List Info) (pkg service : Str) : Option Service :=
  let ms := (hs.filter fun i => i.pkg == pkg && i.service == service).map
    fun i => (⟨i.call, i.type⟩ : Method)
  if ms.isEmpty then none else some ⟨service, sortMethods ms⟩

/-- service.go:254-272. -/
def getMethodInfo (hs : List Info) (pkg service method : Str) : Option Method :=
  (hs.find? fun i => i.pkg == pkg && i.service == service && i.call == method).map
    fun i => ⟨i.call, i.type⟩

/-- server/registry.go:75-96, in one order the map may be visited. -/
def infos {H : Type} (type : H → Nat) (s : Registry.State H) : List Info :=
  (Registry.handlers s).map fun e => ⟨e.1.1, e.1.2.1, e.1.2.2, type e.2⟩

end Claw.RpcReflect
