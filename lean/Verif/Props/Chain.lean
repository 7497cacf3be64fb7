import Verif.Model.Chain

/-!
# C35 Interceptors run in the order given
-/

namespace Claw.Chain

variable {C R I ρ : Type}

/-- The specification: interceptors nested around the handler, the first one outermost. -/
def nest (is : List (Interceptor C R I ρ)) (info : I) (final : Handler C R ρ) : Handler C R ρ :=
  match is with
  | [] => final
  | i :: is => fun c r => i c r info (nest is info final)

theorem chainHandler_drop (is : List (Interceptor C R I ρ)) (info : I) (final : Handler C R ρ) :
    ∀ n idx, is.length - idx = n → chainHandler is idx info final =
      nest (is.drop idx) info final := by
  intro n
  induction n with
  | zero =>
    intro idx h
    rw [chainHandler, dif_neg (by omega), List.drop_of_length_le (by omega)]
    rfl
  | succ n ih =>
    intro idx h
    have hi : idx < is.length := by omega
    rw [chainHandler, dif_pos hi, ih (idx + 1) (by omega), List.drop_eq_getElem_cons hi]
    rfl

theorem invoke_chain (is : List (Interceptor C R I ρ)) (c : C) (r : R) (info : I)
    (final : Handler C R ρ) : invoke (chain is) c r info final = nest is info final c r := by
  match is with
  | [] => rfl
  | [i] => rfl
  | i :: j :: is =>
    simp only [chain, invoke]
    rw [chainHandler_drop _ _ _ _ 0 rfl, List.drop_zero]

/-- The interceptors in force after a list of options, outermost first. -/
def inForce : List (Opt C R I ρ) → List (Interceptor C R I ρ) → List (Interceptor C R I ρ)
  | [], cur => cur
  | .withInterceptors is :: opts, cur => inForce opts (cur ++ is)
  | .prepend i :: opts, cur => inForce opts (i :: cur)

theorem nest_append (xs ys : List (Interceptor C R I ρ)) (info : I) (final : Handler C R ρ) :
    nest (xs ++ ys) info final = nest xs info (nest ys info final) := by
  induction xs with
  | nil => rfl
  | cons x xs ih => simp [nest, ih]

/-- C35: for every list of interceptors, given in one option, in several, or together with a
retry or hedging policy, a call runs them nested around the handler: those of the options in the
order given, and a policy outside everything installed before it. -/
theorem C35_nested_in_order (opts : List (Opt C R I ρ)) (c : C) (r : R) (info : I)
    (final : Handler C R ρ) :
    invoke (install opts) c r info final = nest (inForce opts []) info final c r := by
  have key : ∀ (opts : List (Opt C R I ρ)) (cur : Option (Interceptor C R I ρ))
      (l : List (Interceptor C R I ρ)),
      (∀ c r f, invoke cur c r info f = nest l info f c r) →
      ∀ c r f, invoke (opts.foldl applyOpt cur) c r info f = nest (inForce opts l) info f c r := by
    intro opts
    induction opts with
    | nil => intro cur l h; exact h
    | cons o opts ih =>
      intro cur l h
      rw [List.foldl_cons]
      cases o with
      | withInterceptors is =>
        simp only [inForce]
        apply ih
        intro c r f
        have hn : nest (l ++ is) info f c r = invoke cur c r info (nest is info f) := by
          rw [nest_append, h]
        rw [hn]
        cases cur with
        | none => exact invoke_chain is c r info f
        | some e =>
          simp only [applyOpt]
          rw [invoke_chain]
          rfl
      | prepend i =>
        simp only [inForce]
        apply ih
        intro c r f
        have hi : (fun c r => invoke cur c r info f) = nest l info f := by
          funext c r; exact h c r f
        simp only [nest]
        rw [← hi]
        cases cur with
        | none => rfl
        | some e =>
          simp only [applyOpt]
          rw [invoke_chain]
          rfl
  exact key opts none [] (fun _ _ _ => rfl) c r final

/-! ## What is seen from outside -/

/-- What happens during a call. -/
inductive Ev (R P : Type) where
  | enter (n : Nat) (req : R)
  | handler (req : R)
  | leave (n : Nat) (resp : P)
  deriving DecidableEq, Repr

/-- An interceptor that notes when it starts and ends, passes on a changed request and returns
a changed response. -/
def tracer {C R I P : Type} (n : Nat) (f : R → R) (g : P → P) :
    Interceptor C R I (List (Ev R P) × P) :=
  fun c r _ next =>
    let (tr, p) := next c (f r)
    (.enter n r :: tr ++ [.leave n (g p)], g p)

/-- The expected log of the way in: the requests each interceptor sees, then the handler's. -/
def waysIn {R P : Type} (r : R) : List (Nat × (R → R) × (P → P)) → List (Ev R P) × R
  | [] => ([], r)
  | (n, f, _) :: ts => let (es, r') := waysIn (f r) ts; (.enter n r :: es, r')

/-- The expected log of the way out: innermost first. -/
def waysOut {R P : Type} (p : P) : List (Nat × (R → R) × (P → P)) → List (Ev R P) × P
  | [] => ([], p)
  | (n, _, g) :: ts => let (es, p') := waysOut p ts; (es ++ [.leave n (g p')], g p')

/-- C35, observed: with interceptors that each change the request and the response, they are
entered in the order given, each seeing what the one before passed on; the handler is called
once, with what the last passed on; and they are left in the opposite order. -/
theorem C35_order_observed {C R I P : Type} (ts : List (Nat × (R → R) × (P → P)))
    (c : C) (r : R) (info : I) (h : R → P) :
    let is : List (Interceptor C R I (List (Ev R P) × P)) := ts.map fun t => tracer t.1 t.2.1 t.2.2
    invoke (chain is) c r info (fun _ r => ([.handler r], h r)) =
      ((waysIn (P := P) r ts).1 ++ .handler (waysIn (P := P) r ts).2 ::
        (waysOut (R := R) (h (waysIn (P := P) r ts).2) ts).1,
       (waysOut (R := R) (h (waysIn (P := P) r ts).2) ts).2) := by
  intro is
  rw [invoke_chain]
  show nest (ts.map fun t => tracer t.1 t.2.1 t.2.2) info _ c r = _
  clear is
  induction ts generalizing r with
  | nil => rfl
  | cons t ts ih =>
    obtain ⟨n, f, g⟩ := t
    simp only [List.map_cons, nest, tracer]
    rw [ih (f r)]
    simp [waysIn, waysOut]

/-- C35: an interceptor that does not call the next handler decides the outcome alone; nothing
behind it runs. -/
theorem C35_short_circuit (xs ys ys' : List (Interceptor C R I ρ)) (i : Interceptor C R I ρ)
    (hi : ∀ c r info k k', i c r info k = i c r info k') (c : C) (r : R) (info : I)
    (f f' : Handler C R ρ) :
    invoke (chain (xs ++ i :: ys)) c r info f = invoke (chain (xs ++ i :: ys')) c r info f' := by
  rw [invoke_chain, invoke_chain, nest_append, nest_append]
  have : nest (i :: ys) info f = nest (i :: ys') info f' := by
    funext c r; exact hi c r info _ _
  rw [this]

example : ∃ i : Interceptor Unit Nat Unit Nat, ∀ c r info k k', i c r info k = i c r info k' :=
  ⟨fun _ _ _ _ => 7, fun _ _ _ _ _ => rfl⟩

/-- Two tracing interceptors and a handler, as an instance of the observed order. -/
example : invoke (chain [tracer (C := Unit) (I := Unit) 1 (· + 1) (· * 2), tracer 2 (· * 10) (· + 3)])
    () 5 () (fun _ r => ([.handler r], r)) =
    ([.enter 1 5, .enter 2 6, .handler 60, .leave 2 63, .leave 1 126], 126) := by
  rw [invoke_chain]; rfl

/-- C35 is false for client stream interceptors: they are stored and never called.  Here one
that refuses every stream is installed and the stream is opened all the same. -/
theorem C35_client_stream_interceptors_ignored :
    ∃ (is : List (Interceptor Unit Unit Unit (Option Nat))) (streamer : Handler Unit Unit (Option Nat)),
      nest is () streamer () () = none ∧
      openClientStream (install [.withInterceptors is]) () () streamer = some 7 :=
  ⟨[fun _ _ _ _ => none], fun _ _ => some 7, rfl, rfl⟩

end Claw.Chain
