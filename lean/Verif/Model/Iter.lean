import Verif.Model.Res

/-!
# Iterators over lists

`/repo/clawc/languages/go/segment/lists.go`: `All` and `Range` of `Bools` (115-140), `Numbers` (508-533), `Strings` (714-739),
`Bytes` (909-934) and `Structs` (1155-1180).

The program that uses the iterator is a state `σ`; `items` are the items the list has in a state, and `body` is what the
loop does with an item: the next state, and whether to go on.  The body may change the list.  Simplified: an index or a
length is an `Int` without bounds; `All` of lists that are slices goes over the items as they were at the start, which is
exact unless the body overwrites items in place (`Set`), so nothing is said of such bodies with `All`.
-/

namespace Claw.Iter

open Claw

variable {σ α : Type}

/-- The variables `from` and `to` that the function `Range` returns has captured. -/
structure It where
  lo : Int
  hi : Int
  deriving DecidableEq, Repr

/-- lists.go:128-133 and so on: the captured variables are changed when the iterator is used. -/
def It.clamp (it : It) (len : Nat) : It :=
  ⟨if it.lo < 0 then 0 else it.lo, if it.hi > len then len else it.hi⟩

/-- lists.go:134-138 and so on: `n` indices are left, the next is `i`; an index out of range panics (also in
`Numbers.Get`, 366-369). -/
def rangeLoop (items : σ → List α) (body : σ → α → σ × Bool) : Nat → Nat → σ → Res σ
  | 0, _, s => .ok s
  | n + 1, i, s =>
    match (items s)[i]? with
    | none => .panic
    | some v =>
      let (s', go) := body s v
      if go then rangeLoop items body n (i + 1) s' else .ok s'

/-- One `for … range it`: the iterator afterwards, and the state. -/
def useRange (items : σ → List α) (body : σ → α → σ × Bool) (it : It) (s : σ) : It × Res σ :=
  let it' := it.clamp (items s).length
  (it', rangeLoop items body (it'.hi - it'.lo).toNat it'.lo.toNat s)

/-- The loop of `All` over a slice (117-121 and so on). -/
def sliceLoop (body : σ → α → σ × Bool) : List α → σ → σ
  | [], s => s
  | v :: vs, s =>
    let (s', go) := body s v
    if go then sliceLoop body vs s' else s'

/-- `All` of bools, strings, bytes and structs. -/
def useAll (items : σ → List α) (body : σ → α → σ × Bool) (s : σ) : σ := sliceLoop body (items s) s

/-- `All` of numbers (510-514), which looks at the length again each time; `none` if it is not done after so many steps. -/
def numAll (items : σ → List α) (body : σ → α → σ × Bool) : Nat → Nat → σ → Option σ
  | 0, _, _ => none
  | n + 1, i, s =>
    match (items s)[i]? with
    | none => some s
    | some v =>
      let (s', go) := body s v
      if go then numAll items body n (i + 1) s' else some s'

end Claw.Iter
