import Verif.Model.Res

/-!
# Pickers and balancers

`/repo/rpc/transport/resolver/picker.go` and `/repo/rpc/client/pool/balancer.go`.  The counter is
an `atomic.Uint64`: a number below `2^64`; `Add(1)` wraps around and is atomic, so concurrent
picks are a sequence of picks.
-/

namespace Claw.Balancer

/-- `counter.Add(1)`: the new value. -/
def add1 (c : Nat) : Nat := (c + 1) % 2 ^ 64

/-- picker.go:25-31.  Result: the counter afterwards and the pick, `none` for `ErrNoAddresses`. -/
def rrPicker {α : Type} (c : Nat) (addrs : List α) : Nat × Option α :=
  if addrs.length = 0 then (c, none)
  else
    let c := add1 c
    (c, addrs[c % addrs.length]?)

/-- picker.go:38-43 and balancer.go:44-49. -/
def first {α : Type} (addrs : List α) : Option α :=
  if addrs.length = 0 then none else addrs[0]?

/-- The loop of picker.go:59-64. -/
def minPriority {α : Type} (prio : α → Nat) (m : Nat) : List α → Nat
  | [] => m
  | a :: as => minPriority prio (if prio a < m then prio a else m) as

/-- picker.go:52-77. -/
def priorityPicker {α : Type} (prio : α → Nat) (c : Nat) (addrs : List α) : Nat × Option α :=
  match addrs with
  | [] => (c, none)
  | a :: as =>
    let m := minPriority prio (prio a) as
    let candidates := (a :: as).filter fun x => prio x = m
    let c := add1 c
    (c, candidates[c % candidates.length]?)

/-- balancer.go:24-31. -/
def rrBalancer {α : Type} (c : Nat) (conns : List α) : Nat × Option α :=
  if conns.length = 0 then (c, none)
  else
    let c' := add1 c
    let idx := (c' + (2 ^ 64 - 1)) % 2 ^ 64
    (c', conns[idx % conns.length]?)

/-- balancer.go:68-71, :83-86: weight 0 counts as 1. -/
def weightOf (w : UInt32) : Nat := if w.toNat = 0 then 1 else w.toNat

/-- balancer.go:66-73; `totalWeight` is a `uint64`. -/
def totalWeight {α : Type} (w : α → UInt32) (conns : List α) : Nat :=
  conns.foldl (fun t s => (t + weightOf (w s)) % 2 ^ 64) 0

/-- The loop of balancer.go:80-91; `cumulative` is a `uint64`. -/
def findWeighted {α : Type} (w : α → UInt32) (pos : Nat) (cumulative : Nat) : List α → Option α
  | [] => none
  | s :: ss =>
    let cumulative := (cumulative + weightOf (w s)) % 2 ^ 64
    if pos < cumulative then some s else findWeighted w pos cumulative ss

/-- balancer.go:60-95.  A total weight of 0 (possible only by wrapping) divides by zero. -/
def weighted {α : Type} (w : α → UInt32) (c : Nat) (conns : List α) : Res (Nat × Option α) :=
  if conns.length = 0 then .ok (c, none)
  else
    let total := totalWeight w conns
    let c' := add1 c
    let idx := (c' + (2 ^ 64 - 1)) % 2 ^ 64
    if total = 0 then .panic
    else
      let pos := idx % total
      match findWeighted w pos 0 conns with
      | some s => .ok (c', some s)
      | none => .ok (c', conns[0]?)

/-- balancer.go:106-120. -/
def random {α : Type} (c : Nat) (conns : List α) : Nat × Option α :=
  if conns.length = 0 then (c, none)
  else if conns.length = 1 then (c, conns[0]?)
  else
    let c := add1 c
    let idx := (c * 6364136223846793005 + 1442695040888963407) % 2 ^ 64 % conns.length
    (c, conns[idx]?)

/-- `k` picks in a row. -/
def picks {α : Type} (pick : Nat → Nat × Option α) (c : Nat) : Nat → List (Option α)
  | 0 => []
  | k + 1 => (pick c).2 :: picks pick (pick c).1 k

end Claw.Balancer
