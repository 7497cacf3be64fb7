import Verif.Model.Validate
import Verif.Lemmas.GoStr
import Verif.Props.Chain

/-!
# C46 Validators guard requests and responses
-/

namespace Claw.Validate

open Claw Claw.ErrCode

/-- What a guarded call must satisfy, for the validators in force. -/
structure Guarded (reqV respV : Option Validator) (req : Bytes) (handler : Bytes → Except Err Bytes)
    (o : Out) : Prop where
  /-- nothing but the request is passed on, at most once -/
  only : o.calls = [] ∨ o.calls = [req]
  /-- a request that fails validation is not passed on, and the caller gets an error -/
  bad_request : ∀ v e, reqV = some v → v req = some e → o.calls = [] ∧ ∃ e', o.result = .error e'
  /-- a response that fails validation is not returned -/
  bad_response : ∀ v p e, respV = some v → v p = some e → o.result ≠ .ok p
  /-- otherwise the call is not disturbed -/
  good : (∀ v, reqV = some v → v req = none) →
    o.calls = [req] ∧ ((∀ v p, respV = some v → handler req = .ok p → v p = none) →
      o.result = handler req)

theorem guard_guarded (reqV respV : Option Validator) (req : Bytes)
    (handler : Bytes → Except Err Bytes) :
    Guarded reqV respV req handler (guard reqV respV req handler) := by
  unfold guard
  cases h1 : reqV.bind (· req) with
  | some e =>
    refine ⟨Or.inl rfl, fun _ _ _ _ => ⟨rfl, _, rfl⟩, fun _ _ _ _ _ h => (by cases h), ?_⟩
    intro hg
    exfalso
    obtain ⟨v, hv, he⟩ := Option.bind_eq_some_iff.mp h1
    rw [hg v hv] at he
    cases he
  | none =>
    have hb : ∀ v e, reqV = some v → v req = some e → False := by
      intro v e hv he
      rw [hv] at h1
      simp only [Option.bind_some] at h1
      rw [he] at h1; cases h1
    simp only
    cases hh : handler req with
    | error e =>
      exact ⟨Or.inr rfl, fun v e hv he => (hb v e hv he).elim, fun _ _ _ _ _ h => (by cases h),
        fun _ => ⟨rfl, fun _ => hh.symm⟩⟩
    | ok resp =>
      simp only
      cases h2 : respV.bind (· resp) with
      | some e =>
        refine ⟨Or.inr rfl, fun v e hv he => (hb v e hv he).elim, fun _ _ _ _ _ h => (by cases h),
          fun _ => ⟨rfl, fun hg => ?_⟩⟩
        exfalso
        obtain ⟨v, hv, he⟩ := Option.bind_eq_some_iff.mp h2
        rw [hg v resp hv hh] at he
        cases he
      | none =>
        refine ⟨Or.inr rfl, fun v e hv he => (hb v e hv he).elim, ?_, fun _ => ⟨rfl, fun _ => hh.symm⟩⟩
        intro v p e hv he hp
        injection hp with hp
        subst hp
        rw [hv] at h2
        simp only [Option.bind_some] at h2
        rw [he] at h2; cases h2

/-- C46 on the server: with a validator registered for the method, a request that fails never
reaches the handler, a response that fails is never returned, and nothing else changes. -/
theorem C46_server_guards (r : Registry) (pkg service method : Str) (req : Bytes)
    (handler : Bytes → Except Err Bytes) :
    Guarded (r.request (path3 pkg service method)) (r.response (path3 pkg service method)) req
      handler (unaryServer r pkg service method req handler) :=
  guard_guarded _ _ _ _

theorem splitParts_eq (s : Str) : ∀ start : Str,
    splitParts start s = match Str.splitSlash s with
      | [] => [start]
      | p :: ps => (start ++ p) :: ps := by
  induction s with
  | nil => intro start; simp [splitParts, Str.splitSlash]
  | cons c s ih =>
    intro start
    simp only [splitParts, Str.splitSlash]
    cases hs : Str.splitSlash s with
    | nil => exact absurd hs (splitSlash_ne_nil s)
    | cons p ps =>
      by_cases hc : c = Str.slash
      · simp [hc, ih, hs]
      · simp [hc, ih, hs]

theorem splitParts_split (s : Str) : splitParts [] s = Str.splitSlash s := by
  rw [splitParts_eq]
  cases h : Str.splitSlash s with
  | nil => exact absurd h (splitSlash_ne_nil s)
  | cons p ps => rfl

theorem pattern_path3 (p v c : Str) : pattern p v c = path3 p v c := rfl

theorem parse_two_slashes (method : Str) (h : method.count Str.slash = 2) :
    pattern (parseMethod method).1 (parseMethod method).2.1 (parseMethod method).2.2 = method := by
  have hlen : ∀ s : Str, (Str.splitSlash s).length = s.count Str.slash + 1 := by
    intro s
    induction s with
    | nil => rfl
    | cons c s ih =>
      simp only [Str.splitSlash]
      cases hs : Str.splitSlash s with
      | nil => exact absurd hs (splitSlash_ne_nil s)
      | cons p ps =>
        rw [hs] at ih
        simp only [List.length_cons] at ih
        by_cases hc : c = Str.slash
        · simp [hc]; omega
        · simp [hc]; omega
  have hj := (splitSlash_join method).1
  have hl := hlen method
  rw [h] at hl
  match hs : Str.splitSlash method with
  | [a, b, c] =>
    rw [hs] at hj
    simp only [parseMethod, splitParts_split, hs, pattern_path3, path3_eq]
    simpa [joinSlash] using hj
  | [] => rw [hs] at hl; simp at hl
  | [_] => rw [hs] at hl; simp at hl
  | [_, _] => rw [hs] at hl; simp at hl
  | _ :: _ :: _ :: _ :: _ => rw [hs] at hl; simp at hl

/-- C46 on the client (for method names with exactly two slashes, that is plain package, service
and call names): the validators registered for the method guard it.  The full claim is for every
method name; `C46_client_skips_validators` shows it is false. -/
theorem C46_client_guards_partial (r : Registry) (method : Str) (h : method.count Str.slash = 2)
    (req : Bytes) (invoker : Bytes → Except Err Bytes) :
    Guarded (r.request method) (r.response method) req invoker (unaryClient r method req invoker) := by
  have := guard_guarded (r.request method) (r.response method) req invoker
  unfold unaryClient
  have hp := parse_two_slashes method h
  generalize parseMethod method = t at hp
  obtain ⟨a, b, c⟩ := t
  simp only at hp ⊢
  rw [hp]
  exact this

/-- With a slash in the call name the client interceptor finds no validator: the request that the
registered validator refuses is sent, although the server's interceptor refuses it. -/
theorem C46_client_skips_validators :
    ∃ (r : Registry) (v : Validator) (req : Bytes),
      r.request (path3 (lit "p") (lit "S") (lit "users/create")) = some v ∧ (v req).isSome = true ∧
      (unaryClient r (path3 (lit "p") (lit "S") (lit "users/create")) req .ok).calls = [req] ∧
      (unaryServer r (lit "p") (lit "S") (lit "users/create") req .ok).calls = [] := by
  refine ⟨Registry.new.registerRequest (path3 (lit "p") (lit "S") (lit "users/create"))
      (fun _ => some .other), fun _ => some .other, [1], ?_, rfl, ?_, ?_⟩
  · simp [Registry.registerRequest, Dict.set]
  · decide +kernel
  · decide +kernel

/-- C46 for the messages of a validating stream: what the handler receives is the longest valid
beginning, with an error exactly if something was cut off; what it sends reaches the wire exactly
if valid. -/
theorem C46_stream_guards (v : Validator) (ps : List Bytes) (p : Bytes) :
    (∃ rest, ps = (recv (some v) ps).1 ++ rest ∧ (∀ x ∈ (recv (some v) ps).1, v x = none) ∧
      ((recv (some v) ps).2 = none ↔ rest = []) ∧ (∀ x xs, rest = x :: xs → v x ≠ none)) ∧
    (v p = none → send (some v) p = ([p], none)) ∧
    (v p ≠ none → (send (some v) p).1 = [] ∧ (send (some v) p).2 ≠ none) := by
  refine ⟨?_, ?_, ?_⟩
  · induction ps with
    | nil => exact ⟨[], rfl, by simp [recv], by simp [recv], by simp⟩
    | cons x xs ih =>
      simp only [recv, Option.bind_some]
      cases hx : v x with
      | some e =>
        exact ⟨x :: xs, rfl, by simp, by simp, fun y ys he => by
          injection he with he _; subst he; rw [hx]; simp⟩
      | none =>
        obtain ⟨rest, h1, h2, h3, h4⟩ := ih
        refine ⟨rest, by simp only [List.cons_append]; rw [← h1], ?_, h3, h4⟩
        intro y hy
        rcases List.mem_cons.mp hy with e | e
        · subst e; exact hx
        · exact h2 y e
  · intro h; simp [send, h]
  · intro h
    cases hv : v p with
    | none => exact absurd hv h
    | some e => simp [send, hv]

/-- C46 is not usable for streams: with the validating stream interceptor anywhere among
interceptors that pass the stream on, every stream handler of every kind panics before it
starts. -/
theorem C46_stream_interceptor_panics (k : Kind) (handler : Option Err)
    (xs ys : List (Chain.Interceptor Unit SStream Unit (Res (Option Err))))
    (hx : ∀ i ∈ xs, ∀ c s info next, i c s info next = next c s)
    (hy : ∀ i ∈ ys, ∀ c s info next, i c s info next = next c s) :
    runStream k (xs ++ streamServer :: ys) handler = .panic := by
  have pass : ∀ (l : List (Chain.Interceptor Unit SStream Unit (Res (Option Err)))) (f c s),
      (∀ i ∈ l, ∀ c s info next, i c s info next = next c s) →
      Chain.nest l () f c s = f c s := by
    intro l
    induction l with
    | nil => intro f c s _; rfl
    | cons i l ih =>
      intro f c s h
      simp only [Chain.nest]
      rw [h i (by simp), ih f c s (fun j hj => h j (by simp [hj]))]
  unfold runStream
  rw [Chain.invoke_chain, Chain.nest_append, pass xs _ _ _ hx]
  simp only [Chain.nest, streamServer]
  rw [pass ys _ _ _ hy]
  cases k <;> rfl

/-- The code sent to the client is that of the validator's own error; for an ordinary error it is
13 (internal) although the text says invalid argument (3). -/
theorem C46_code_of_validation_errors (e : Err) :
    errCode (some (wrapValidationError e)) = errCode (some e) ∧
    errCode (some (wrapValidationError .other)) = 13 := by
  constructor
  · simp [errCode, wrapValidationError, asRpc, isDeadline, isCanceled]
  · decide

/-- A validator that accepts some and refuses other requests, on both sides. -/
example : (unaryServer (Registry.new.registerRequest (lit "p/S/M")
      (fun b => if b = [] then some .other else none)) (lit "p") (lit "S") (lit "M") [] .ok).calls = [] ∧
    (unaryClient (Registry.new.registerRequest (lit "p/S/M")
      (fun b => if b = [] then some .other else none)) (lit "p/S/M") [7] .ok).calls = [[7]] ∧
    (lit "p/S/M").count Str.slash = 2 ∧
    runStream .bidir [] none = .ok none := by
  refine ⟨by decide +kernel, by decide +kernel, by decide +kernel, rfl⟩

end Claw.Validate
