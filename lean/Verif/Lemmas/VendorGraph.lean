import Verif.Lemmas.Vendor

/-!
# The graph of dependencies and the readers of imports
-/

namespace Claw.Vendor

open Claw.Graph
open Claw.Mod (Module Replace)
open Claw.Idl (Out Uni)

section

variable (w : World) (u : Uni) (single : Bool) (root : Module) (loc : List Replace)

/-- What is got for a package: replacements and versions of claw.mod applied. -/
def got (p : Str) : Out (List Str × Bool) := fetch w single (applyReplace p root loc) (resolveVersion p root)

/-- The imports of a package; none if it cannot be had. -/
def importsOf (p : Str) : List Str :=
  match got w single root loc p with
  | .ok x => x.1
  | _ => []

/-- What holds of a graph during the walk. -/
structure GoodGraph (visited : List Str) (g : Graph) : Prop where
  nodup : (g.map (·.1)).Nodup
  node : ∀ x ∈ g, got w single root loc x.1 = .ok (x.2.deps, x.2.shouldVendor) ∧ x.2.mod = moduleFile w u (applyReplace x.1 root loc)
  closed : ∀ q ∈ g.map (·.1), q ∉ visited → (∀ d ∈ importsOf w single root loc q, d ∈ g.map (·.1)) ∧
    Acc (fun d p => d ∈ importsOf w single root loc p) q

/-- What a call does. -/
structure Processed (visited : List Str) (p : Str) (g g' : Graph) : Prop where
  good : GoodGraph w u single root loc visited g'
  mem : p ∈ g'.map (·.1)
  more : ∀ x ∈ g.map (·.1), x ∈ g'.map (·.1)
  reach : ∀ x ∈ g'.map (·.1), x ∈ g.map (·.1) ∨ Reach (importsOf w single root loc) p x
  acc : Acc (fun d p => d ∈ importsOf w single root loc p) p

variable {w u single root loc}

theorem good_start {visited : List Str} {g : Graph} (hg : GoodGraph w u single root loc visited g) {p : Str} (hp : p ∉ g.map (·.1))
    {deps : List Str} {vend : Bool} (hgot : got w single root loc p = .ok (deps, vend)) :
    GoodGraph w u single root loc (p :: visited) (g ++ [(p, ⟨deps, moduleFile w u (applyReplace p root loc), vend⟩)]) := by
  refine ⟨?_, ?_, ?_⟩
  · rw [List.map_append, List.nodup_append]
    refine ⟨hg.nodup, by simp, ?_⟩
    intro a ha b hb
    simp only [List.map_cons, List.map_nil, List.mem_singleton] at hb
    subst hb
    rintro rfl
    exact hp ha
  · intro x hx
    rcases List.mem_append.1 hx with hx | hx
    · exact hg.node x hx
    · simp only [List.mem_singleton] at hx
      subst hx
      exact ⟨hgot, rfl⟩
  · intro q hq hnv
    simp only [List.mem_cons, not_or] at hnv
    rw [List.map_append, List.mem_append] at hq
    rcases hq with hq | hq
    · obtain ⟨h1, h2⟩ := hg.closed q hq hnv.2
      exact ⟨fun d hd => by rw [List.map_append, List.mem_append]; exact .inl (h1 d hd), h2⟩
    · simp only [List.map_cons, List.map_nil, List.mem_singleton] at hq
      exact absurd hq hnv.1

theorem process_ok : ∀ (n : Nat) (visited : List Str) (p : Str) (g g' : Graph), GoodGraph w u single root loc visited g →
    process w u single root loc n visited p (resolveVersion p root) g = .ok g' → Processed w u single root loc visited p g g' := by
  intro n
  induction n with
  | zero => intro visited p g g' _ h; cases h
  | succ n ih =>
    intro visited p g g' hg h
    rw [process] at h
    split at h
    · cases h
    · rename_i hnv
      split at h
      · rename_i hin
        cases h
        exact ⟨hg, hin, fun x hx => hx, fun x hx => .inl hx, (hg.closed p hin hnv).2⟩
      · rename_i hin
        simp only [Out.bind_eq_ok] at h
        obtain ⟨⟨deps, vend⟩, hf, h⟩ := h
        have hgot : got w single root loc p = .ok (deps, vend) := hf
        have himp : importsOf w single root loc p = deps := by rw [importsOf, hgot]
        have hg0 := good_start hg hin hgot
        have hw := walk_ok h (fun done x => GoodGraph w u single root loc (p :: visited) x ∧
            (∀ y ∈ (g ++ [(p, (⟨deps, moduleFile w u (applyReplace p root loc), vend⟩ : Node))]).map (·.1), y ∈ x.map (·.1)) ∧
            (∀ d ∈ done, d ∈ x.map (·.1) ∧ Acc (fun d p => d ∈ importsOf w single root loc p) d) ∧
            ∀ y ∈ x.map (·.1), y ∈ g.map (·.1) ∨ Reach (importsOf w single root loc) p y)
          ⟨hg0, fun y hy => hy, by simp, by
            intro y hy
            rw [List.map_append, List.mem_append] at hy
            rcases hy with hy | hy
            · exact .inl hy
            · simp only [List.map_cons, List.map_nil, List.mem_singleton] at hy
              subst hy
              exact .inr .refl⟩ (by
            rintro d hd done x1 x2 ⟨g1, k1, m1, r1⟩ hx
            have hpr := ih (p :: visited) d x1 x2 g1 hx
            refine ⟨hpr.good, fun y hy => hpr.more y (k1 y hy), ?_, ?_⟩
            · intro y hy
              rcases List.mem_append.1 hy with hy | hy
              · exact ⟨hpr.more y (m1 y hy).1, (m1 y hy).2⟩
              · simp only [List.mem_singleton] at hy
                subst hy
                exact ⟨hpr.mem, hpr.acc⟩
            · intro y hy
              rcases hpr.reach y hy with hy | hy
              · exact r1 y hy
              · exact .inr (hy.head (by rw [himp]; exact hd)))
        obtain ⟨g1, k1, m1, r1⟩ := hw
        have hacc : Acc (fun d p => d ∈ importsOf w single root loc p) p := ⟨p, fun d hd => (m1 d (by rw [← himp]; exact hd)).2⟩
        refine ⟨⟨g1.nodup, g1.node, ?_⟩, k1 p (by simp), fun x hx => k1 x (by
          rw [List.map_append, List.mem_append]; exact .inl hx), r1, hacc⟩
        intro q hq hqv
        by_cases hqp : q = p
        · subst hqp
          exact ⟨fun d hd => (m1 d (by rw [← himp]; exact hd)).1, hacc⟩
        · exact g1.closed q hq (by simp [hqp, hqv])

/-- A call fails only over a cycle or a package that cannot be had. -/
theorem process_err : ∀ (n : Nat) (visited : List Str) (p : Str) (g : Graph), GoodGraph w u single root loc visited g →
    (∀ v ∈ visited, ∃ d ∈ importsOf w single root loc v, Reach (importsOf w single root loc) d p) →
    process w u single root loc n visited p (resolveVersion p root) g = .err →
    ∃ q, Reach (importsOf w single root loc) p q ∧ (Cyclic (importsOf w single root loc) q ∨ got w single root loc q = .err) := by
  intro n
  induction n with
  | zero => intro visited p g _ _ h; cases h
  | succ n ih =>
    intro visited p g hg hpath h
    rw [process] at h
    split at h
    · rename_i hv
      exact ⟨p, .refl, .inl (hpath p hv)⟩
    · rename_i hnv
      split at h
      · cases h
      · rename_i hin
        cases hf : fetch w single (applyReplace p root loc) (resolveVersion p root) with
        | panic => simp only [hf] at h; cases h
        | err => exact ⟨p, .refl, .inr hf⟩
        | ok x =>
          obtain ⟨deps, vend⟩ := x
          simp only [hf, Out.ok_bind] at h
          have hgot : got w single root loc p = .ok (deps, vend) := hf
          have himp : importsOf w single root loc p = deps := by rw [importsOf, hgot]
          have hg0 := good_start hg hin hgot
          obtain ⟨d, hd, x1, g1, h1⟩ := walk_err h (fun x => GoodGraph w u single root loc (p :: visited) x) hg0 (by
            intro d hd x1 x2 g1 hx
            exact (process_ok n (p :: visited) d x1 x2 g1 hx).good)
          obtain ⟨q, hq, hc⟩ := ih (p :: visited) d x1 g1 (by
            intro v hv
            rcases List.mem_cons.1 hv with rfl | hv
            · exact ⟨d, by rw [himp]; exact hd, .refl⟩
            · obtain ⟨y, hy, hr⟩ := hpath v hv
              exact ⟨y, hy, .step hr (by rw [himp]; exact hd)⟩) h1
          exact ⟨q, hq.head (by rw [himp]; exact hd), hc⟩

/-- A call panics only if a package cannot be asked for, given a depth of the number of packages. -/
theorem process_panic {all : List Str} (hall : ∀ p ∈ all, ∀ d ∈ importsOf w single root loc p, d ∈ all) :
    ∀ (n : Nat) (visited : List Str) (p : Str) (g : Graph), GoodGraph w u single root loc visited g → visited.Nodup →
    (∀ v ∈ visited, v ∈ all) → p ∈ all → all.length < n + visited.length →
    process w u single root loc n visited p (resolveVersion p root) g = .panic →
    ∃ q, Reach (importsOf w single root loc) p q ∧ got w single root loc q = .panic := by
  intro n
  induction n with
  | zero =>
    intro visited p g _ hn hv _ hl _
    have := length_le_of_nodup hn hv
    omega
  | succ n ih =>
    intro visited p g hg hn hv hp hl h
    rw [process] at h
    split at h
    · cases h
    · rename_i hnv
      split at h
      · cases h
      · rename_i hin
        cases hf : fetch w single (applyReplace p root loc) (resolveVersion p root) with
        | err => simp only [hf] at h; cases h
        | panic => exact ⟨p, .refl, hf⟩
        | ok x =>
          obtain ⟨deps, vend⟩ := x
          simp only [hf, Out.ok_bind] at h
          have hgot : got w single root loc p = .ok (deps, vend) := hf
          have himp : importsOf w single root loc p = deps := by rw [importsOf, hgot]
          have hg0 := good_start hg hin hgot
          obtain ⟨d, hd, x1, g1, h1⟩ := walk_panic h (fun x => GoodGraph w u single root loc (p :: visited) x) hg0 (by
            intro d hd x1 x2 g1 hx
            exact (process_ok n (p :: visited) d x1 x2 g1 hx).good)
          have hd' : d ∈ importsOf w single root loc p := by rw [himp]; exact hd
          obtain ⟨q, hq, hc⟩ := ih (p :: visited) d x1 g1 (List.nodup_cons.2 ⟨hnv, hn⟩) (by
            intro v hv'
            rcases List.mem_cons.1 hv' with rfl | hv'
            · exact hp
            · exact hv v hv') (hall p hp d hd') (by rw [List.length_cons]; omega) h1
          exact ⟨q, hq.head hd', hc⟩

theorem good_empty : GoodGraph w u single root loc [] [] := ⟨by simp, by simp, by simp⟩

end

end Claw.Vendor
