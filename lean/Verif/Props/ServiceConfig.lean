import Verif.Model.ServiceConfig
import Verif.Lemmas.GoStr

/-!
# C31: service configuration
-/

namespace Claw.ServiceConfig

open Claw

/-! ## Specification -/

/-- What a pattern means. -/
inductive Pat where
  | exact (p s m : Str)
  | service (p s : Str)
  | package (p : Str)
  | everything
  deriving DecidableEq, Repr

/-- The methods a pattern covers. -/
def Pat.Covers : Pat → Str → Str → Str → Prop
  | .exact p s m, p', s', m' => p = p' ∧ s = s' ∧ m = m'
  | .service p s, p', s', _ => p = p' ∧ s = s'
  | .package p, p', _, _ => p = p'
  | .everything, _, _, _ => True

def Pat.rank : Pat → Nat
  | .exact _ _ _ => 3
  | .service _ _ => 2
  | .package _ => 1
  | .everything => 0

/-- How the documentation tells users to write a pattern. -/
def Pat.text : Pat → Str
  | .exact p s m => p ++ lit "/" ++ s ++ lit "/" ++ m
  | .service p s => p ++ lit "/" ++ s ++ lit "/*"
  | .package p => p ++ lit "/*/*"
  | .everything => lit "*/*/*"

/-- A name that cannot be taken for path syntax. -/
def Plain (s : Str) : Prop := Str.slash ∉ s ∧ s ≠ lit "*"

def Pat.Plain : Pat → Prop
  | .exact p s m => ServiceConfig.Plain p ∧ ServiceConfig.Plain s ∧ ServiceConfig.Plain m
  | .service p s => ServiceConfig.Plain p ∧ ServiceConfig.Plain s
  | .package p => ServiceConfig.Plain p
  | .everything => True

/-- A configuration step, by meaning. -/
inductive Op where
  | config (pat : Pat) (cfg : MethodConfig)
  | timeout (pat : Pat) (t : Int)
  | wait (pat : Pat) (w : Bool)
  deriving DecidableEq, Repr

def Op.pat : Op → Pat
  | .config p _ => p
  | .timeout p _ => p
  | .wait p _ => p

/-- One setting applied to what was there: the property given is set, the other kept. -/
def Op.effect (cur : Option MethodConfig) : Op → MethodConfig
  | .config _ cfg => cfg
  | .timeout _ t => { timeout := t, waitForReady := (cur.map (·.waitForReady)).getD false }
  | .wait _ w => { timeout := (cur.map (·.timeout)).getD 0, waitForReady := w }

/-- What the user has asked for one pattern: the settings given for that pattern, in order. -/
def wanted (pat : Pat) : List Op → Option MethodConfig → Option MethodConfig
  | [], cur => cur
  | op :: ops, cur => wanted pat ops (if op.pat = pat then some (op.effect cur) else cur)

/-- The code run by the builder. -/
def exec (c : Config) : Op → Config
  | .config p cfg => setMethodConfig c p.text cfg
  | .timeout p t => setTimeout c p.text t
  | .wait p w => setWaitForReady c p.text w

theorem star_path : lit "/*/*" = lit "/" ++ lit "*" ++ lit "/" ++ lit "*" := by decide +kernel
theorem star_all : lit "*/*/*" = lit "*" ++ lit "/" ++ lit "*" ++ lit "/" ++ lit "*" := by
  decide +kernel
theorem star_last : lit "/*" = lit "/" ++ lit "*" := by decide +kernel
theorem star_free : Str.slash ∉ lit "*" := by decide +kernel

/-- Every pattern is a path of three parts. -/
def Pat.parts : Pat → Str × Str × Str
  | .exact p s m => (p, s, m)
  | .service p s => (p, s, lit "*")
  | .package p => (p, lit "*", lit "*")
  | .everything => (lit "*", lit "*", lit "*")

theorem Pat.text_eq (p : Pat) : p.text = path3 p.parts.1 p.parts.2.1 p.parts.2.2 := by
  cases p <;> simp [Pat.text, Pat.parts, path3, star_path, star_all, star_last]

theorem Pat.text_inj {p q : Pat} (hp : p.Plain) (hq : q.Plain) (h : p.text = q.text) : p = q := by
  rw [Pat.text_eq, Pat.text_eq] at h
  have hfree : ∀ r : Pat, r.Plain → Str.slash ∉ r.parts.1 ∧ Str.slash ∉ r.parts.2.1 := by
    intro r hr
    cases r with
    | exact p s m => exact ⟨hr.1.1, hr.2.1.1⟩
    | service p s => exact ⟨hr.1.1, hr.2.1⟩
    | package p => exact ⟨hr.1, star_free⟩
    | everything => exact ⟨star_free, star_free⟩
  obtain ⟨h1, h2, h3⟩ := path3_inj h (hfree p hp).1 (hfree p hp).2 (hfree q hq).1 (hfree q hq).2
  cases p <;> cases q <;> simp only [Pat.parts] at h1 h2 h3 <;>
    simp only [Pat.Plain, ServiceConfig.Plain] at hp hq <;> first
      | (subst h1; subst h2; subst h3; rfl)
      | (subst h1; subst h2; rfl)
      | (subst h1; rfl)
      | rfl
      | (exfalso; simp_all)

theorem exec_get (c : Config) (op : Op) (pat : Pat) (hp : pat.Plain) (ho : op.pat.Plain) :
    exec c op pat.text = if op.pat = pat then some (op.effect (c pat.text)) else c pat.text := by
  have key : (pat.text = op.pat.text) ↔ op.pat = pat :=
    ⟨fun h => (Pat.text_inj hp ho h).symm, fun h => by rw [h]⟩
  by_cases h : op.pat = pat
  · rw [if_pos h]
    subst h
    cases op with
    | config p cfg => simp [Op.pat, Op.effect, exec, setMethodConfig, Dict.set]
    | timeout p t =>
      simp only [Op.pat, exec, setTimeout, Dict.set, if_true]
      cases c p.text <;> rfl
    | wait p w =>
      simp only [Op.pat, exec, setWaitForReady, Dict.set, if_true]
      cases c p.text <;> rfl
  · rw [if_neg h]
    have hne : ¬ pat.text = op.pat.text := fun e => h (key.mp e)
    cases op <;> simp only [Op.pat] at hne <;>
      simp [exec, setMethodConfig, setTimeout, setWaitForReady, Dict.set, hne]

theorem fold_get (ops : List Op) (hops : ∀ op ∈ ops, op.pat.Plain) (pat : Pat) (hp : pat.Plain)
    (c : Config) : (ops.foldl exec c) pat.text = wanted pat ops (c pat.text) := by
  induction ops generalizing c with
  | nil => rfl
  | cons op ops ih =>
    rw [List.foldl_cons, ih (fun o h => hops o (by simp [h])),
      exec_get c op pat hp (hops op (by simp))]
    rfl

/-- The configuration after a history of settings. -/
def build (ops : List Op) : Config := ops.foldl exec Dict.empty

/-- **C31.**  For every history of settings and every method (names without `/` and other
than `*`): the configuration returned is that of the most specific pattern covering the method
among those ever set, with exactly the settings given for it, and there is none exactly when
no covering pattern was set. -/
theorem C31_most_specific_partial (ops : List Op) (hops : ∀ op ∈ ops, op.pat.Plain)
    (p s m : Str) (hp : Plain p) (hs : Plain s) (hm : Plain m) :
    (∀ cfg, getMethodConfig (build ops) p s m = some cfg ↔
      ∃ pat : Pat, pat.Covers p s m ∧ wanted pat ops none = some cfg ∧
        ∀ pat' : Pat, pat'.Covers p s m → pat.rank < pat'.rank → wanted pat' ops none = none) ∧
    (getMethodConfig (build ops) p s m = none ↔
      ∀ pat : Pat, pat.Covers p s m → wanted pat ops none = none) := by
  have g : ∀ pat : Pat, pat.Plain → build ops pat.text = wanted pat ops none :=
    fun pat h => fold_get ops hops pat h Dict.empty
  have g1 := g (.exact p s m) ⟨hp, hs, hm⟩
  have g2 := g (.service p s) ⟨hp, hs⟩
  have g3 := g (.package p) hp
  have g4 := g .everything trivial
  simp only [Pat.text] at g1 g2 g3 g4
  have covers : ∀ pat : Pat, pat.Covers p s m ↔
      pat = .exact p s m ∨ pat = .service p s ∨ pat = .package p ∨ pat = .everything := by
    intro pat
    cases pat <;> simp [Pat.Covers]
  unfold getMethodConfig
  rw [g1, g2, g3, g4]
  simp only [covers]
  cases w1 : wanted (.exact p s m) ops none with
  | some c1 =>
    constructor
    · intro cfg
      constructor
      · intro h
        exact ⟨_, Or.inl rfl, by rw [w1]; exact h, by
          rintro pat' (rfl | rfl | rfl | rfl) hr <;> simp [Pat.rank] at hr⟩
      · rintro ⟨pat, (rfl | rfl | rfl | rfl), h1, h2⟩
        · rw [w1] at h1; exact h1
        · have := h2 _ (Or.inl rfl) (by simp [Pat.rank]); rw [w1] at this; cases this
        · have := h2 _ (Or.inl rfl) (by simp [Pat.rank]); rw [w1] at this; cases this
        · have := h2 _ (Or.inl rfl) (by simp [Pat.rank]); rw [w1] at this; cases this
    · constructor
      · intro h; cases h
      · intro h
        have := h _ (Or.inl rfl)
        rw [w1] at this; cases this
  | none =>
    cases w2 : wanted (.service p s) ops none with
    | some c2 =>
      constructor
      · intro cfg
        constructor
        · intro h
          exact ⟨_, Or.inr (Or.inl rfl), by rw [w2]; exact h, by
            rintro pat' (rfl | rfl | rfl | rfl) hr
            · exact w1
            all_goals simp [Pat.rank] at hr⟩
        · rintro ⟨pat, (rfl | rfl | rfl | rfl), h1, h2⟩
          · rw [w1] at h1; cases h1
          · rw [w2] at h1; exact h1
          · have := h2 _ (Or.inr (Or.inl rfl)) (by simp [Pat.rank]); rw [w2] at this; cases this
          · have := h2 _ (Or.inr (Or.inl rfl)) (by simp [Pat.rank]); rw [w2] at this; cases this
      · constructor
        · intro h; cases h
        · intro h
          have := h _ (Or.inr (Or.inl rfl))
          rw [w2] at this; cases this
    | none =>
      cases w3 : wanted (.package p) ops none with
      | some c3 =>
        constructor
        · intro cfg
          constructor
          · intro h
            exact ⟨_, Or.inr (Or.inr (Or.inl rfl)), by rw [w3]; exact h, by
              rintro pat' (rfl | rfl | rfl | rfl) hr
              · exact w1
              · exact w2
              all_goals simp [Pat.rank] at hr⟩
          · rintro ⟨pat, (rfl | rfl | rfl | rfl), h1, h2⟩
            · rw [w1] at h1; cases h1
            · rw [w2] at h1; cases h1
            · rw [w3] at h1; exact h1
            · have := h2 _ (Or.inr (Or.inr (Or.inl rfl))) (by simp [Pat.rank])
              rw [w3] at this; cases this
        · constructor
          · intro h; cases h
          · intro h
            have := h _ (Or.inr (Or.inr (Or.inl rfl)))
            rw [w3] at this; cases this
      | none =>
        constructor
        · intro cfg
          constructor
          · intro h
            exact ⟨_, Or.inr (Or.inr (Or.inr rfl)), h, by
              rintro pat' (rfl | rfl | rfl | rfl) hr
              · exact w1
              · exact w2
              · exact w3
              all_goals simp [Pat.rank] at hr⟩
          · rintro ⟨pat, (rfl | rfl | rfl | rfl), h1, h2⟩
            · rw [w1] at h1; cases h1
            · rw [w2] at h1; cases h1
            · rw [w3] at h1; cases h1
            · exact h1
        · constructor
          · intro h
            rintro pat (rfl | rfl | rfl | rfl)
            · exact w1
            · exact w2
            · exact w3
            · exact h
          · intro h
            exact h _ (Or.inr (Or.inr (Or.inr rfl)))

/-- The restriction on names is needed: a package name with a slash (as import paths have) is
configured by a setting meant for another method. -/
theorem C31_slash_confuses :
    ∃ (ops : List Op) (p s m : Str) (cfg : MethodConfig),
      (∀ op ∈ ops, ¬ op.pat.Covers p s m) ∧ getMethodConfig (build ops) p s m = some cfg := by
  refine ⟨[.timeout (.exact (lit "a/b") (lit "c") (lit "d")) 5], lit "a", lit "b/c", lit "d",
    ⟨5, false⟩, ?_, by decide +kernel⟩
  intro op hop
  simp only [List.mem_singleton] at hop
  subst hop
  simp only [Op.pat, Pat.Covers]
  decide +kernel

/-- Setting one property of a pattern (any text) keeps the other and touches no other
pattern. -/
theorem C31_setting_keeps_other (c : Config) (pattern q : Str) (t : Int) (w : Bool) :
    (∀ cfg, c pattern = some cfg →
      setTimeout c pattern t pattern = some { timeout := t, waitForReady := cfg.waitForReady } ∧
      setWaitForReady c pattern w pattern = some { timeout := cfg.timeout, waitForReady := w }) ∧
    (q ≠ pattern → setTimeout c pattern t q = c q ∧ setWaitForReady c pattern w q = c q) := by
  constructor
  · intro cfg h
    simp [setTimeout, setWaitForReady, Dict.set, h]
  · intro h
    simp [setTimeout, setWaitForReady, Dict.set, h]

/-- `ParsePattern` accepts exactly the texts with two slashes and gives back their parts. -/
theorem C31_parse_pattern (s a b c : Str) :
    parsePattern s = some (a, b, c) ↔
      s = path3 a b c ∧ Str.slash ∉ a ∧ Str.slash ∉ b ∧ Str.slash ∉ c := by
  constructor
  · intro h
    have hj := splitSlash_join s
    unfold parsePattern at h
    split at h
    · rename_i x y z hs
      rw [hs] at hj
      simp only [Option.some.injEq, Prod.mk.injEq] at h
      obtain ⟨rfl, rfl, rfl⟩ := h
      refine ⟨?_, hj.2 _ (by simp), hj.2 _ (by simp), hj.2 _ (by simp)⟩
      rw [path3_eq, ← hj.1]
      simp [joinSlash]
    · cases h
  · rintro ⟨rfl, ha, hb, hc⟩
    unfold parsePattern
    rw [path3_eq, splitSlash_cut _ ha, splitSlash_cut _ hb, splitSlash_free hc]

/-- Applying the configuration to a call never replaces the caller's own deadline and never
turns off a wait-for-ready the caller asked for; without a deadline the configured timeout is
used. -/
theorem C31_apply (cfg : Option Config) (p s m : Str) (hasDeadline wait : Bool) :
    (hasDeadline = true → (applyServiceConfig cfg p s m hasDeadline wait).1 = none) ∧
    (wait = true → (applyServiceConfig cfg p s m hasDeadline wait).2 = true) ∧
    (∀ c t w, cfg = some c → getMethodConfig c p s m = some ⟨t, w⟩ → hasDeadline = false →
      0 < t → (applyServiceConfig cfg p s m hasDeadline wait).1 = some t) ∧
    (∀ c t w, cfg = some c → getMethodConfig c p s m = some ⟨t, w⟩ →
      (applyServiceConfig cfg p s m hasDeadline wait).2 = (wait || w)) := by
  refine ⟨?_, ?_, ?_, ?_⟩
  · intro h
    unfold applyServiceConfig
    split
    · rfl
    · split
      · rfl
      · simp [h]
  · intro h
    unfold applyServiceConfig
    split
    · exact h
    · split
      · exact h
      · simp [h]
  · intro c t w hc hg hd ht
    subst hc
    simp [applyServiceConfig, hg, hd, ht]
  · intro c t w hc hg
    subst hc
    cases w <;> cases wait <;> simp [applyServiceConfig, hg]

/-! ## Concrete cases -/

def demo : List Op :=
  [.timeout .everything 1, .timeout (.package (lit "app")) 2,
   .wait (.service (lit "app") (lit "User")) true, .timeout (.service (lit "app") (lit "User")) 3,
   .config (.exact (lit "app") (lit "User") (lit "Get")) ⟨4, false⟩]

example : ∀ op ∈ demo, op.pat.Plain := by
  simp only [demo, List.mem_cons, List.not_mem_nil, or_false, forall_eq_or_imp, forall_eq, Op.pat,
    Pat.Plain, Plain]
  decide +kernel

example : getMethodConfig (build demo) (lit "app") (lit "User") (lit "Get") = some ⟨4, false⟩ ∧
    getMethodConfig (build demo) (lit "app") (lit "User") (lit "Put") = some ⟨3, true⟩ ∧
    getMethodConfig (build demo) (lit "app") (lit "Other") (lit "Put") = some ⟨2, false⟩ ∧
    getMethodConfig (build demo) (lit "x") (lit "y") (lit "z") = some ⟨1, false⟩ := by
  decide +kernel

end Claw.ServiceConfig
