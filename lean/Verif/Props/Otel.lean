import Verif.Model.Otel
import Verif.Props.Chain
import Verif.Props.ErrCode
import Verif.Props.RpcReflect

/-!
# C109, C110: the OpenTelemetry interceptors
-/

namespace Claw.Otel

open Claw Claw.ErrCode Claw.RpcReflect Spec.Range

/-! ## Specification -/

/-- What was not recorded by an interceptor. -/
def isUser : Ev → Bool
  | .user _ => true
  | _ => false

/-- The counts under a name, in order; `true` for a call without an error. -/
def counts (name : Str) : List Ev → List Bool
  | [] => []
  | .count n ok :: evs => if n = name then ok :: counts name evs else counts name evs
  | _ :: evs => counts name evs

/-- Of the parts of an error, the ones that decide what `errors.Is` says about contexts. -/
def SameContext (a b : Err) : Prop := isDeadline a = isDeadline b ∧ isCanceled a = isCanceled b

/-- A rule for a method names it in full or names the whole parts after some `/`. -/
def MethodRule (rule full : Str) : Prop := rule = full ∨ ∃ front, full = front ++ lit "/" ++ rule

/-- A rule for metadata: the key and the value are the same, or the rule takes any value. -/
def MetadataRule (rules : List (Str × Str)) (e : Str × Bytes) : Prop :=
  ∃ want, rules.lookup e.1 = some want ∧ (want = lit "*" ∨ want = e.2)

/-- One of the ranges has the address. -/
def IPRule (p6 : Str → Option (Bytes × Str)) (ranges : List Str) (ip : Str) : Prop :=
  ∃ b, parseIP p6 ip = some b ∧ ∃ s ∈ ranges, ∃ a n, cidrParts p6 s = some (a, n) ∧ InRange a n b

/-! ## C109 -/

theorem counts_append (name : Str) (a b : List Ev) :
    counts name (a ++ b) = counts name a ++ counts name b := by
  induction a with
  | nil => rfl
  | cons e a ih => cases e <;> simp [counts, ih]; split <;> simp

/-- The interceptors give the caller the response of the handler, an error exactly when it gave
one, with the same answer about deadlines and cancellation, and run it once, with the request
unchanged: what it did is in the middle of what happened, between what they recorded. -/
theorem C109_result (c : Config) (name : Str) (sampled : Bool) (handler : Bytes → Out)
    (req : Bytes) :
    (unary c name sampled handler req).resp = (handler req).resp ∧
    ((unary c name sampled handler req).err = none ↔ (handler req).err = none) ∧
    (∀ e, (handler req).err = some e →
      ∃ e', (unary c name sampled handler req).err = some e' ∧ SameContext e e') ∧
    ∃ pre post, (unary c name sampled handler req).evs = pre ++ (handler req).evs ++ post ∧
      (∀ e ∈ pre ++ post, isUser e = false) := by
  refine ⟨rfl, ?_, ?_, ?_⟩
  · simp [unary]
  · intro e he
    exact ⟨wrapE e, by simp [unary, he], rfl, rfl⟩
  · refine ⟨_, _, rfl, ?_⟩
    intro e he
    simp at he
    rcases he with ⟨-, rfl⟩ | ⟨-, rfl⟩ | ⟨-, rfl | ⟨-, rfl⟩⟩ | ⟨-, rfl⟩ <;> rfl

/-- With metrics on, the call is counted once under its name, as a failure exactly when the
handler failed, after what the handler itself counted; with metrics off it is not counted. -/
theorem C109_counted (c : Config) (name : Str) (sampled : Bool) (handler : Bytes → Out)
    (req : Bytes) :
    counts name (unary c name sampled handler req).evs =
      counts name (handler req).evs ++
        (if c.metrics then [(handler req).err.isNone] else []) := by
  simp only [unary, counts_append]
  cases c.tracing <;> cases c.metrics <;> cases c.sizes <;> simp [counts]

/-- The server sends a code that depends only on deadlines and cancellation. -/
theorem wrapped_code (e : Err) :
    errCode (some (wrapE e)) = if isDeadline e then 4 else if isCanceled e then 1 else 13 := rfl

/-- An error without a category of `rpc/errors` reaches the client with the code it has without
the interceptor, and so does no error. -/
theorem C109_code_partial (c : Config) (ctx : Unit) (req : Bytes) (info : Info)
    (handler : Chain.Handler Unit Bytes Out)
    (h : ∀ e cat, (handler ctx req).err = some e → asRpc e ≠ some (some cat)) :
    errCode (unaryServer c ctx req info handler).err = errCode (handler ctx req).err := by
  have : (unaryServer c ctx req info handler).err = (handler ctx req).err.map wrapE := rfl
  rw [this]
  cases he : (handler ctx req).err with
  | none => rfl
  | some e =>
    rw [Option.map_some, wrapped_code]
    unfold errCode
    cases hc : asRpc e with
    | none => simp [hc]
    | some o =>
      cases o with
      | none => simp [hc]
      | some cat => exact absurd hc (h e cat he)

/-- Disagreement with C109: every other error loses its code.  Whatever the category the handler
chose, the client gets 13, or 4 or 1 if the error holds a deadline or a cancellation. -/
theorem C109_code_lost (c : Config) (ctx : Unit) (req : Bytes) (info : Info)
    (handler : Chain.Handler Unit Bytes Out) (cat : UInt32) (msg : Err)
    (h : (handler ctx req).err = some (Err.E cat msg)) :
    errCode (handler ctx req).err = cat.toUInt16 ∧
    errCode (unaryServer c ctx req info handler).err =
      (if isDeadline msg then 4 else if isCanceled msg then 1 else 13) := by
  have e : (unaryServer c ctx req info handler).err = (handler ctx req).err.map wrapE := rfl
  rw [e, h]
  exact ⟨rfl, rfl⟩

/-- The same for a chain of interceptors among which is this one: if those outside it pass the
error on or wrap it, the code is lost too. -/
theorem C109_chain (c : Config) (xs ys : List (Chain.Interceptor Unit Bytes Info Out)) (ctx : Unit)
    (req : Bytes) (info : Info) (handler : Chain.Handler Unit Bytes Out)
    (hx : ∀ x ∈ xs, ∀ ctx req next, ∃ req',
      (x ctx req info next).err = (next ctx req').err ∨
      (x ctx req info next).err = (next ctx req').err.map .wrap) :
    errCode (Chain.invoke (Chain.chain (xs ++ unaryServer c :: ys)) ctx req info handler).err ∈
      [0, 1, 4, 13] := by
  rw [Chain.invoke_chain, Chain.nest_append]
  have base : ∀ req, ∃ o : Option Err,
      (Chain.nest (unaryServer c :: ys) info handler ctx req).err = o.map wrapE :=
    fun req => ⟨_, rfl⟩
  have wrapped : ∀ o : Option Err, (∀ e, o = some e → asRpc e = some none) →
      errCode o ∈ [0, 1, 4, 13] := by
    intro o ho
    cases o with
    | none => simp [errCode]
    | some e =>
      have := ho e rfl
      unfold errCode
      simp only [this]
      split
      · simp
      · split <;> simp
  apply wrapped
  clear wrapped
  induction xs generalizing req with
  | nil =>
    intro e he
    obtain ⟨o, ho⟩ := base req
    rw [show Chain.nest [] info (Chain.nest (unaryServer c :: ys) info handler) ctx req =
      Chain.nest (unaryServer c :: ys) info handler ctx req from rfl, ho] at he
    cases o with
    | none => simp at he
    | some x => simp at he; subst he; rfl
  | cons x xs ih =>
    intro e he
    obtain ⟨req', h | h⟩ := hx x (by simp) ctx req
      (Chain.nest xs info (Chain.nest (unaryServer c :: ys) info handler))
    · rw [show Chain.nest (x :: xs) info (Chain.nest (unaryServer c :: ys) info handler) ctx req =
        x ctx req info (Chain.nest xs info (Chain.nest (unaryServer c :: ys) info handler)) from rfl,
        h] at he
      exact ih req' (fun y hy => hx y (by simp [hy])) e he
    · rw [show Chain.nest (x :: xs) info (Chain.nest (unaryServer c :: ys) info handler) ctx req =
        x ctx req info (Chain.nest xs info (Chain.nest (unaryServer c :: ys) info handler)) from rfl,
        h] at he
      cases hn : (Chain.nest xs info (Chain.nest (unaryServer c :: ys) info handler) ctx req').err with
      | none => rw [hn] at he; simp at he
      | some y =>
        rw [hn] at he
        simp at he
        subst he
        exact ih req' (fun y hy => hx y (by simp [hy])) y hn

/-- A stream handler's error goes the same way. -/
theorem C109_stream_code_lost (c : Config) (ctx : Unit) (stream : Bytes) (info : Info)
    (handler : Chain.Handler Unit Bytes Out) (cat : UInt32) (msg : Err)
    (h : (handler ctx stream).err = some (Err.E cat msg)) :
    errCode (handler ctx stream).err = cat.toUInt16 ∧
    errCode (streamServer c ctx stream info handler).err =
      (if isDeadline msg then 4 else if isCanceled msg then 1 else 13) := by
  have e : (streamServer c ctx stream info handler).err = (handler ctx stream).err.map wrapE := rfl
  rw [e, h]
  exact ⟨rfl, rfl⟩

/-! ## C110 -/

theorem compile_some {p6 : Str → Option (Bytes × Str)} {r r' : Rules} (h : r.compile p6 = some r') :
    r.ranges.map (parseCIDR p6) = r'.cidrs.map some ∧ r'.metadata = r.metadata ∧
      r'.methods = r.methods ∧ r'.ranges = r.ranges := by
  unfold Rules.compile at h
  cases hm : r.ranges.mapM (parseCIDR p6) with
  | none => simp [hm] at h
  | some nets =>
    simp only [hm, Option.bind_eq_bind, Option.bind_some] at h
    have h := Option.some.inj h
    rw [← h]
    exact ⟨(mapM_some_iff _ _ _).1 hm, rfl, rfl, rfl⟩

/-- `New` fails exactly when a range of the rules cannot be read. -/
theorem C110_config (p6 : Str → Option (Bytes × Str)) (c : Config) :
    (∃ c', New p6 c = some c') ↔
      ∀ r, c.rules = some r → ∀ s ∈ r.ranges, ∃ a n, cidrParts p6 s = some (a, n) := by
  unfold New
  cases hr : c.rules with
  | none => simp
  | some r =>
    have := C102_config p6 { allowed := r.ranges, header := [], validator := none }
    simp only [Option.some.injEq, forall_eq'] at *
    rw [← this]
    unfold Rules.compile RpcReflect.Config.validate
    cases r.ranges.mapM (parseCIDR p6) <;> simp

/-- After `New`, `ShouldTrace` says yes exactly when one of the rules applies. -/
theorem C110_decision {p6 : Str → Option (Bytes × Str)} (h6 : Reads6 p6) {c c' : Config}
    (hc : New p6 c = some c') (r : Rules) (hr : c.rules = some r) (ip full : Str)
    (md : List (Str × Bytes)) :
    shouldTrace p6 c'.rules ip full md = true ↔
      IPRule p6 r.ranges ip ∨ (∃ m ∈ r.methods, MethodRule m full) ∨
        ∃ e ∈ md, MetadataRule r.metadata e := by
  unfold New at hc
  rw [hr] at hc
  dsimp only at hc
  cases hk : r.compile p6 with
  | none => simp [hk] at hc
  | some r' =>
    rw [hk, Option.map_some] at hc
    have hc := Option.some.inj hc
    obtain ⟨e1, e2, e3, e4⟩ := compile_some hk
    rw [← hc]
    simp only [shouldTrace, Bool.or_eq_true, or_assoc]
    refine or_congr ?_ (or_congr ?_ ?_)
    · unfold Rules.matchesIP IPRule
      cases hp : parseIP p6 ip with
      | none => simp
      | some b =>
        have hb : IsAddr b := by
          unfold parseIP at hp
          split at hp
          · next x hx =>
            have := parseAddr_isAddr h6 hx
            rw [← Option.some.inj hp]
            unfold as16
            rcases this with h | h
            · right; simp [h, v4Prefix]
            · right; simp [h]
          · simp at hp
        simp only [List.any_eq_true, Option.some.injEq, exists_eq_left']
        have hmem : ∀ n, n ∈ r'.cidrs ↔ ∃ s ∈ r.ranges, parseCIDR p6 s = some n := by
          intro n
          have : some n ∈ r.ranges.map (parseCIDR p6) ↔ n ∈ r'.cidrs := by rw [e1]; simp
          rw [← this, List.mem_map]
        constructor
        · rintro ⟨n, hn, hcn⟩
          obtain ⟨s, hs, hq⟩ := (hmem n).1 hn
          unfold parseCIDR at hq
          cases hx : cidrParts p6 s with
          | none => simp [hx] at hq
          | some q =>
            obtain ⟨a, k⟩ := q
            simp only [hx, Option.map_some, Option.some.injEq] at hq
            obtain ⟨h1, h2⟩ := cidrParts_ok h6 hx
            exact ⟨s, hs, a, k, hx, (RpcReflect.contains_iff h1 h2 hb).1 (hq ▸ hcn)⟩
        · rintro ⟨s, hs, a, k, hq, hr⟩
          obtain ⟨h1, h2⟩ := cidrParts_ok h6 hq
          exact ⟨_, (hmem _).2 ⟨s, hs, by unfold parseCIDR; rw [hq]; rfl⟩,
            (RpcReflect.contains_iff h1 h2 hb).2 hr⟩
    · unfold Rules.matchesMethod MethodRule
      rw [e3]
      simp only [List.any_eq_true, Bool.or_eq_true, beq_iff_eq, hasSuffix,
        List.isSuffixOf_iff_suffix, List.IsSuffix]
      constructor
      · rintro ⟨m, hm, h | ⟨t, h⟩⟩
        · exact ⟨m, hm, .inl h⟩
        · exact ⟨m, hm, .inr ⟨t, by rw [← h, List.append_assoc]⟩⟩
      · rintro ⟨m, hm, h | ⟨t, h⟩⟩
        · exact ⟨m, hm, .inl h⟩
        · exact ⟨m, hm, .inr ⟨t, by rw [h, List.append_assoc]⟩⟩
    · unfold Rules.matchesMetadata MetadataRule
      rw [e2]
      simp only [List.any_eq_true]
      constructor
      · rintro ⟨⟨k, v⟩, he, h⟩
        refine ⟨(k, v), he, ?_⟩
        dsimp only at h ⊢
        split at h
        · next want hw => exact ⟨want, hw, by simpa using h⟩
        · simp at h
      · rintro ⟨⟨k, v⟩, he, want, hw, h⟩
        refine ⟨(k, v), he, ?_⟩
        dsimp only at hw ⊢
        rw [hw]; simpa using h

/-- Disagreement with C110: the interceptors never ask the rules.  A call the sampler does not
take is not traced, though `ShouldTrace` says it should be. -/
theorem C110_ignored {p6 : Str → Option (Bytes × Str)} {c c' : Config} (_ : New p6 c = some c')
    (ctx : Unit) (req : Bytes) (info : Info) (handler : Chain.Handler Unit Bytes Out)
    (_ : shouldTrace p6 c'.rules info.ip info.full info.metadata = true)
    (hs : info.sampled = false)
    (hh : ∀ name, Ev.span name true ∉ (handler ctx req).evs) (name : Str) :
    Ev.span name true ∉ (unaryServer c' ctx req info handler).evs ∧
    Ev.span name true ∉ (streamServer c' ctx req info handler).evs := by
  have := hh name
  unfold unaryServer streamServer unary
  rw [hs]
  cases c'.tracing <;> cases c'.metrics <;> cases c'.sizes <;> simp [this]

/-- With tracing on, a call the sampler takes is traced under the full name of its method. -/
theorem C110_sampled (c : Config) (ctx : Unit) (req : Bytes) (info : Info)
    (handler : Chain.Handler Unit Bytes Out) (ht : c.tracing = true) :
    Ev.span info.full info.sampled ∈ (unaryServer c ctx req info handler).evs ∧
    Ev.span info.full info.sampled ∈ (streamServer c ctx req info handler).evs := by
  simp [unaryServer, streamServer, unary, ht]

/-! ## Cases the theorems are about -/

section Cases

/-- No IPv6. -/
def no6 : Str → Option (Bytes × Str) := fun _ => none

/-- Trace everything from `10.0.0.0/8`, every `Login`, every call with a `debug` header. -/
def rules : Rules :=
  { ranges := [lit "10.0.0.0/8"], metadata := [(lit "debug", lit "*")],
    methods := [lit "Login"], cidrs := [] }

def cfg : Config := { tracing := true, metrics := true, sizes := true, rules := some rules }

/-- A call from `10.1.2.3` the sampler does not take. -/
def info : Info :=
  { pkg := lit "auth", service := lit "Users", method := lit "Logout", sampled := false,
    ip := lit "10.1.2.3", metadata := [] }

/-- A handler that answers `NotFound`. -/
def notFound : Chain.Handler Unit Bytes Out :=
  fun _ _ => { resp := [], err := some (Err.E 5 .other), evs := [.user 1] }

example : Reads6 no6 := by intro s b z h; cases h
example : (New no6 cfg).isSome = true := by decide +kernel
example : ((New no6 cfg).map fun c => shouldTrace no6 c.rules info.ip info.full info.metadata) =
    some true := by decide +kernel
example : ((New no6 cfg).map fun c =>
    (shouldTrace no6 c.rules (lit "11.1.2.3") info.full info.metadata,
      shouldTrace no6 c.rules (lit "11.1.2.3") (lit "auth/Users/Login") [],
      shouldTrace no6 c.rules (lit "11.1.2.3") (lit "auth/Users/ReLogin") [],
      shouldTrace no6 c.rules (lit "") (lit "") [(lit "debug", [1])])) =
    some (false, true, false, true) := by decide +kernel
example : New no6 { cfg with rules := some { rules with ranges := [lit "10.0.0.0"] } } = none := by
  rfl
example : errCode (notFound () []).err = 5 ∧
    errCode (unaryServer cfg () [] info notFound).err = 13 := by decide +kernel
example : (unaryServer cfg () [1, 2] info notFound).evs =
    [.span info.full false, .requestSize info.full 2, .user 1, .count info.full false,
     .responseSize info.full 0, .endSpan] := by decide +kernel

end Cases

end Claw.Otel
