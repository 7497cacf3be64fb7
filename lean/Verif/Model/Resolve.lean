import Verif.Model.Resolver
import Verif.Model.Balancer

/-!
# Resolving a target and dialling it

`/repo/rpc/transport/resolver/dns/dns.go`, `/repo/rpc/transport/resolver/registry.go`,
`/repo/rpc/transport/resolver/passthrough/passthrough.go` and `ResolvingDialer` of
`/repo/rpc/transport/transport.go`.

The Go library is modelled where its result matters: `net.SplitHostPort` and `net.JoinHostPort` follow
its source; `net.ParseIP` and the lookups of a name server are parameters (`Net`).
-/

namespace Claw.Resolve

open Claw Claw.Resolver

abbrev colon : UInt8 := 58
abbrev lb : UInt8 := 91
abbrev rb : UInt8 := 93

/-- `bytealg.LastIndexByteString`. -/
def lastIdx (c : UInt8) : Str → Option Nat
  | [] => none
  | x :: s =>
    match lastIdx c s with
    | some i => some (i + 1)
    | none => if x = c then some 0 else none

/-- `bytealg.IndexByteString`. -/
def idx (c : UInt8) : Str → Option Nat
  | [] => none
  | x :: s => if x = c then some 0 else (idx c s).map (· + 1)

/-- `net.SplitHostPort`; `none` is an error. -/
def splitHostPort (s : Str) : Option (Str × Str) :=
  match lastIdx colon s with
  | none => none
  | some i =>
    if s.head? = some lb then
      match idx rb s with
      | none => none
      | some e =>
        if e + 1 = i then
          if lb ∈ s.drop 1 ∨ rb ∈ s.drop (e + 1) then none
          else some ((s.take e).drop 1, s.drop (i + 1))
        else none
    else if colon ∈ s.take i then none
    else if lb ∈ s ∨ rb ∈ s then none
    else some (s.take i, s.drop (i + 1))

/-- `net.JoinHostPort`. -/
def joinHostPort (h p : Str) : Str :=
  if colon ∈ h then lb :: h ++ [rb, colon] ++ p else h ++ colon :: p

/-- An SRV record, `net.SRV`; the target without its trailing dot and the port in decimal. -/
structure Srv where
  target : Str
  port : Str
  priority : Nat
  weight : Nat

/-- What the library says: which strings `net.ParseIP` takes, and what a name server answers (the
addresses in their text form). -/
structure Net where
  isIP : Str → Bool
  lookupIP : Str → Option (List Str)
  lookupSRV : Str → Str → Str → Option (List Srv)

/-- resolver.go:9-25 `Address`, without the attributes, which no resolver sets. -/
structure Addr where
  addr : Str
  priority : Nat := 0
  weight : Nat := 0
  deriving DecidableEq, Repr

/-- dns.go:56-71 `config`. -/
structure Config where
  defaultPort : Str
  srvService : Str
  srvProto : Str
  useSRV : Bool

/-- dns.go:73-78. -/
def defaultConfig : Config := ⟨lit "443", [], [], false⟩

/-- dns.go:106-126 `resolveSRV`. -/
def resolveSRV (n : Net) (cfg : Config) (endpoint : Str) : Option (List Addr) :=
  (n.lookupSRV cfg.srvService cfg.srvProto endpoint).map fun rs =>
    rs.map fun r => ⟨joinHostPort r.target r.port, r.priority, r.weight⟩

/-- dns.go:128-162 `resolveHost`. -/
def resolveHost (n : Net) (cfg : Config) (endpoint : Str) : Option (List Addr) :=
  let (host, port) := match splitHostPort endpoint with
    | some hp => hp
    | none => (endpoint, cfg.defaultPort)
  if n.isIP host then some [⟨joinHostPort host port, 0, 0⟩]
  else
    match n.lookupIP host with
    | none => none
    | some [] => none
    | some ips => some (ips.map fun ip => ⟨joinHostPort ip port, 0, 0⟩)

/-- dns.go:86-104 `Resolve`. -/
def resolve (n : Net) (cfg : Config) (endpoint : Str) : Option (List Addr) :=
  if cfg.useSRV = true ∧ cfg.srvService ≠ [] ∧ cfg.srvProto ≠ [] then
    match resolveSRV n cfg endpoint with
    | some (a :: as) => some (a :: as)
    | _ => resolveHost n cfg endpoint
  else resolveHost n cfg endpoint

/-- dns.go:28-52 `Build`: a resolver for the target, asking the name server of the authority (the empty
one is that of the system).  `servers` gives the name server at an address. -/
def buildDns (servers : Str → Net) (t : Target) : Option (List Addr) :=
  resolve (servers t.authority) defaultConfig t.endpoint

/-- passthrough.go:22-34. -/
def buildPassthrough (t : Target) : Option (List Addr) := some [⟨t.endpoint, 0, 0⟩]

/-! ## The dialer -/

/-- The builders, `registry.go`: what a resolver for a target gives. -/
abbrev Builders := Dict Str (Target → Option (List Addr))

/-- The pickers of picker.go. -/
inductive Picker where
  | roundRobin
  | first
  | priority
  deriving DecidableEq, Repr

/-- picker.go: the counter afterwards and the address picked. -/
def Picker.pick (p : Picker) (c : Nat) (as : List Addr) : Nat × Option Addr :=
  match p with
  | .roundRobin => Balancer.rrPicker c as
  | .first => (c, Balancer.first as)
  | .priority => Balancer.priorityPicker (·.priority) c as

/-- transport.go:72-77 `ResolvingDialer`; the resolver as what it answers at each time. -/
structure Dialer where
  target : Str
  parsed : Target
  resolver : Target → Option (List Addr)
  picker : Picker

/-- transport.go:108-139 `NewResolvingDialer`. -/
def newDialer (low : Str → Str) (bs : Builders) (target : Str) (p : Picker) : Option Dialer :=
  match parse low target with
  | none => none
  | some t =>
    match bs t.scheme with
    | none => none
    | some b => some ⟨target, t, b, p⟩

/-- What a call of `Dial` did: the addresses it dialled and the one it got a connection to. -/
structure Dialled where
  tried : List Str
  conn : Option Str
  deriving DecidableEq, Repr

/-- transport.go:142-157 `Dial`; `up` says which addresses the dial function can connect to, `c` is the
counter of the picker. -/
def Dialer.dial (d : Dialer) (up : Str → Bool) (c : Nat) : Nat × Dialled :=
  match d.resolver d.parsed with
  | none => (c, ⟨[], none⟩)
  | some as =>
    match d.picker.pick c as with
    | (c, none) => (c, ⟨[], none⟩)
    | (c, some a) => (c, ⟨[a.addr], if up a.addr then some a.addr else none⟩)

/-- `k` calls of `Dial` in a row. -/
def Dialer.dials (d : Dialer) (up : Str → Bool) (c : Nat) : Nat → List Dialled
  | 0 => []
  | k + 1 => (d.dial up c).2 :: d.dials up (d.dial up c).1 k

end Claw.Resolve
