import Verif.Lemmas.VendorGraph
import Verif.Props.ModWrite

/-!
# Dependencies (C90–C92)
-/

namespace Claw.Vendor

open Claw.Graph
open Claw.Mod (Module Replace)
open Claw.Idl (Out Uni)

/-! ### C90: the graph of dependencies -/

section

variable {w : World} {u : Uni} {single : Bool} {root : Module} {loc : List Replace}

/-- C90: the graph has exactly the packages that are reached from the file to be compiled, each once and with all its imports, and
none of them imports itself, directly or through others. -/
theorem C90_graph {depth : Nat} {top : Str} (h0 : resolveVersion top root = []) {g : Graph}
    (h : process w u single root loc depth [] top [] [] = .ok g) :
    (g.map (·.1)).Nodup ∧
    (∀ p, p ∈ g.map (·.1) ↔ Reach (importsOf w single root loc) top p) ∧
    (∀ x ∈ g, got w single root loc x.1 = .ok (x.2.deps, x.2.shouldVendor)) ∧
    ∀ p ∈ g.map (·.1), ¬ Cyclic (importsOf w single root loc) p := by
  rw [← h0] at h
  have hp := process_ok depth [] top [] g good_empty h
  have hm : ∀ p, p ∈ g.map (·.1) ↔ Reach (importsOf w single root loc) top p := by
    intro p
    constructor
    · intro hm
      rcases hp.reach p hm with h | h
      · simp at h
      · exact h
    · intro hr
      induction hr with
      | refl => exact hp.mem
      | step _ hd ih => exact (hp.good.closed _ ih (by simp)).1 _ hd
  refine ⟨hp.good.nodup, hm, fun x hx => (hp.good.node x hx).1, ?_⟩
  intro p hm'
  exact acyclic_of_acc hp.acc p ((hm p).1 hm')

/-- C90: the collection fails only if a package that is reached cannot be had or imports itself. -/
theorem C90_error {depth : Nat} {top : Str} (h0 : resolveVersion top root = [])
    (h : process w u single root loc depth [] top [] [] = .err) :
    ∃ q, Reach (importsOf w single root loc) top q ∧ (Cyclic (importsOf w single root loc) q ∨ got w single root loc q = .err) := by
  rw [← h0] at h
  exact process_err depth [] top [] good_empty (by simp) h

theorem fetch_no_panic (w : World) (p v : Str) : fetch w false p v ≠ .panic := by
  unfold fetch
  repeat' split
  all_goals simp_all

/-- C90: the collection ends, however the packages import each other: it recurses no deeper than the number of packages. -/
theorem C90_ends {all : List Str} (hall : ∀ p ∈ all, ∀ d ∈ importsOf w false root loc p, d ∈ all) {depth : Nat} {top : Str}
    (hd : all.length < depth) (htop : top ∈ all) (h0 : resolveVersion top root = []) :
    process w u false root loc depth [] top [] [] ≠ .panic := by
  rw [← h0]
  intro h
  obtain ⟨q, -, hq⟩ := process_panic hall depth [] top [] good_empty (by simp) (by simp) htop (by simpa using hd) h
  exact fetch_no_panic _ _ _ hq

/-- C90: with every package that is reached at hand and none that imports itself, the collection succeeds. -/
theorem C90_succeeds {all : List Str} (hall : ∀ p ∈ all, ∀ d ∈ importsOf w false root loc p, d ∈ all) {depth : Nat} {top : Str}
    (hd : all.length < depth) (htop : top ∈ all) (h0 : resolveVersion top root = [])
    (hgot : ∀ p, Reach (importsOf w false root loc) top p → got w false root loc p ≠ .err)
    (hac : ∀ p, Reach (importsOf w false root loc) top p → ¬ Cyclic (importsOf w false root loc) p) :
    ∃ g, process w u false root loc depth [] top [] [] = .ok g := by
  cases h : process w u false root loc depth [] top [] [] with
  | ok g => exact ⟨g, rfl⟩
  | err =>
    obtain ⟨q, hr, hc | hc⟩ := C90_error h0 h
    · exact absurd hc (hac q hr)
    · exact absurd hc (hgot q hr)
  | panic => exact absurd h (C90_ends hall hd htop h0)

/-- C90: a module that was read from a file requires no versions, so the file to be compiled has none either. -/
theorem no_version {u : Uni} {text : Bytes} {m : Module} (h : Mod.parseModule u text = .ok m) (p : Str) : resolveVersion p m = [] := by
  rw [resolveVersion, (Mod.C86_no_versions_no_lists u text m h).1]
  rfl

/-- C90 is violated by `clawc get`: outside of a git repository it panics for every package that is not at a local path. -/
theorem C90_get_panics (hg : w.git = none) {pkg : Str} (hp : isLocalPath (applyReplace pkg root loc) = false) (n : Nat) (version : Str) :
    process w u true root loc (n + 1) [] pkg version [] = .panic := by
  rw [process, if_neg (by simp), if_neg (by simp)]
  simp [fetch, hp, hg]

/-- C90: a package that local.replace replaces by a directory has the imports of the file in that directory, whatever claw.mod
replaces it by; one that claw.mod alone replaces has the imports of the file there. -/
theorem C90_replaced (pkg dir : Str) (hd : isLocalPath dir = true) {pre post : List Replace} (hpre : ∀ r ∈ pre, r.fromPath ≠ pkg) :
    (loc = pre ++ ⟨pkg, dir⟩ :: post → importsOf w single root loc pkg = (w.claw dir).getD []) ∧
    ((∀ r ∈ loc, r.fromPath ≠ pkg) → root.replace = pre ++ ⟨pkg, dir⟩ :: post →
      importsOf w single root loc pkg = (w.claw dir).getD []) := by
  have hf : ∀ (l : List Replace), (∀ r ∈ l, r.fromPath ≠ pkg) → l.find? (fun r => r.fromPath == pkg) = none := by
    intro l h
    rw [List.find?_eq_none]
    intro r hr
    simpa using h r hr
  have hfind : (pre ++ ⟨pkg, dir⟩ :: post).find? (fun r => r.fromPath == pkg) = some ⟨pkg, dir⟩ := by
    rw [List.find?_append, hf pre hpre]
    simp
  have hfetch : applyReplace pkg root loc = dir → importsOf w single root loc pkg = (w.claw dir).getD [] := by
    intro e
    rw [importsOf, got, e, fetch, if_pos hd]
    cases w.claw dir <;> rfl
  constructor
  · intro h
    apply hfetch
    rw [applyReplace, h, hfind]
  · intro h1 h2
    apply hfetch
    rw [applyReplace, hf loc h1, h2, hfind]

end

/-- Packages `r`, `a`, `b`, `c`; `r` imports `a` and `b`, both of which import `c`. -/
def diamond : World :=
  { claw := fun p => if p = lit "/r" then some [lit "a", lit "b"] else none
    mod := fun _ => none
    git := none
    remote := fun p _ => if p = lit "a" ∨ p = lit "b" then some [lit "c"] else if p = lit "c" then some [] else none }

-- both files replace `a`
example : importsOf { diamond with claw := fun p => if p = lit "./a1" then some [lit "c"] else some [] } false
    ⟨lit "m", [], [⟨lit "a", lit "./a2"⟩], []⟩ [⟨lit "a", lit "./a1"⟩] (lit "a") = [lit "c"] :=
  (C90_replaced (pre := []) (post := []) (lit "a") (lit "./a1") (by decide) (by simp)).1 rfl

example : (process diamond Mod.ascii false ⟨lit "m", [], [], []⟩ [] 5 [] (lit "/r") [] []).bind (fun g => .ok (g.map (·.1))) =
    .ok [lit "/r", lit "a", lit "c", lit "b"] := by decide +kernel

-- `c` imports `a`
example : (process { diamond with remote := fun p _ => if p = lit "a" then some [lit "c"] else some [lit "a"] } Mod.ascii false
    ⟨lit "m", [], [], []⟩ [] 5 [] (lit "/r") [] []).bind (fun g => .ok (g.map (·.1))) = .err := by decide +kernel

example : process diamond Mod.ascii true ⟨lit "m", [], [], []⟩ [] 1 [] (lit "a") [] [] = .panic :=
  C90_get_panics rfl (by decide) 0 _

/-! ### C91: the order of compilation -/

/-- `a` comes before `b` in the list. -/
def Before (l : List Str) (a b : Str) : Prop := ∃ l1 l2 l3, l = l1 ++ a :: l2 ++ b :: l3

theorem order_state {e : Str → List Str} {nodes : List Str} {depth : Nat} {l : List Str} (h : compileOrder e nodes depth = .ok l) :
    ∃ s : Marks, l = s.result.reverse ∧ s.Good e ∧ (∀ p ∈ nodes, p ∈ s.result) ∧ ∀ x ∈ s.result, ∃ p ∈ nodes, Reach e p x := by
  rw [compileOrder, Out.bind_eq_ok] at h
  obtain ⟨s, hs, h⟩ := h
  have he := flip_reverse s.result
  cases h
  refine ⟨s, he, ?_⟩
  have hw := walk_ok hs (fun done x => x.Good e ∧ (∀ p ∈ done, p ∈ x.result) ∧ ∀ y ∈ x.result, ∃ p ∈ nodes, Reach e p y)
    ⟨⟨by simp, by simp, fun l1 p l2 h => by simp at h, by simp, by simp⟩, by simp, by simp⟩ (by
      rintro d hd done x1 x2 ⟨g, m, r⟩ hx
      have hv := visit_ok e depth d x1 x2 g hx
      refine ⟨hv.good, ?_, ?_⟩
      · intro p hp
        rcases List.mem_append.1 hp with hp | hp
        · exact hv.more p (m p hp)
        · simp only [List.mem_singleton] at hp
          subst hp
          exact hv.mem
      · intro y hy
        rcases hv.reach y hy with hy | hy
        · exact r y hy
        · exact ⟨d, hd, hy⟩)
  exact hw

/-- C91: the order has every package that is reached, each once. -/
theorem C91_each_once {e : Str → List Str} {nodes : List Str} {depth : Nat} {l : List Str} (h : compileOrder e nodes depth = .ok l) :
    l.Nodup ∧ ∀ x, x ∈ l ↔ ∃ p ∈ nodes, Reach e p x := by
  obtain ⟨s, rfl, g, m, r⟩ := order_state h
  refine ⟨by
    rw [List.Nodup, List.pairwise_reverse]
    exact g.nodup.imp fun h => h.symm, fun x => ?_⟩
  rw [List.mem_reverse]
  refine ⟨r x, ?_⟩
  rintro ⟨p, hp, hr⟩
  exact ordered_closed g.ordered (List.append_nil _).symm hr (m p hp)

/-- C91 is violated: every package comes before those that it imports. -/
theorem C91_importers_first {e : Str → List Str} {nodes : List Str} {depth : Nat} {l : List Str} (h : compileOrder e nodes depth = .ok l)
    {p d : Str} (hp : p ∈ l) (hd : d ∈ e p) : Before l p d := by
  obtain ⟨s, rfl, g, -, -⟩ := order_state h
  rw [List.mem_reverse] at hp
  obtain ⟨a, b, hab⟩ := List.append_of_mem hp
  have := g.ordered a p b hab d hd
  obtain ⟨a1, a2, rfl⟩ := List.append_of_mem this
  exact ⟨b.reverse, a2.reverse, a1.reverse, by simp [hab]⟩

/-- C91 is violated: no package that is imported comes before one that imports it. -/
theorem C91_dependencies_never_first {e : Str → List Str} {nodes : List Str} {depth : Nat} {l : List Str}
    (h : compileOrder e nodes depth = .ok l) {p d : Str} (hp : p ∈ l) (hd : d ∈ e p) : ¬ Before l d p := by
  obtain ⟨l1, l2, l3, h1⟩ := C91_importers_first h hp hd
  have hn := (C91_each_once h).1
  rintro ⟨m1, m2, m3, h2⟩
  -- the places of `p` and `d`
  have e1 : l.idxOf p = l1.length := by
    rw [h1, List.append_assoc, List.idxOf_append, if_neg]
    · simp
    · intro hx
      rw [h1, List.append_assoc, List.nodup_append] at hn
      exact hn.2.2 p hx p (by simp) rfl
  have e2 : l.idxOf d = m1.length := by
    rw [h2, List.append_assoc, List.idxOf_append, if_neg]
    · simp
    · intro hx
      rw [h2, List.append_assoc, List.nodup_append] at hn
      exact hn.2.2 d hx d (by simp) rfl
  have e3 : l.idxOf d = (l1 ++ p :: l2).length := by
    rw [h1, List.idxOf_append, if_neg]
    · simp
    · intro hx
      rw [h1, List.nodup_append] at hn
      exact hn.2.2 d hx d (by simp) rfl
  have e4 : l.idxOf p = (m1 ++ d :: m2).length := by
    rw [h2, List.idxOf_append, if_neg]
    · simp
    · intro hx
      rw [h2, List.nodup_append] at hn
      exact hn.2.2 p hx p (by simp) rfl
  simp only [List.length_append, List.length_cons] at e1 e2 e3 e4
  omega

/-- C91: there is an order exactly if no package imports itself, directly or through others; the walk ends in any case. -/
theorem C91_fails_iff {e : Str → List Str} {nodes all : List Str} (hall : ∀ p ∈ all, ∀ d ∈ e p, d ∈ all) (hn : ∀ p ∈ nodes, p ∈ all)
    {depth : Nat} (hd : all.length < depth) :
    (compileOrder e nodes depth = .err ↔ ∃ p ∈ nodes, ∃ q, Reach e p q ∧ Cyclic e q) ∧ compileOrder e nodes depth ≠ .panic := by
  have hg0 : Marks.Good e ⟨[], [], []⟩ := ⟨by simp, by simp, fun l1 p l2 h => by simp at h, by simp, by simp⟩
  have hkeep : ∀ d ∈ nodes, ∀ s1 s2 : Marks, (s1.Good e ∧ s1.visiting = []) → visit e depth d s1 = .ok s2 → (s2.Good e ∧ s2.visiting = []) := by
    rintro d _ s1 s2 ⟨g, v⟩ hx
    have := visit_ok e depth d s1 s2 g hx
    exact ⟨this.good, this.visiting.trans v⟩
  have hnp : compileOrder e nodes depth ≠ .panic := by
    intro h
    have hw : walk (visit e depth) nodes ⟨[], [], []⟩ = .panic := by
      unfold compileOrder at h
      cases hx : walk (visit e depth) nodes ⟨[], [], []⟩ with
      | ok s => rw [hx] at h; cases h
      | err => rw [hx] at h; cases h
      | panic => rfl
    obtain ⟨d, hd', s1, ⟨g, v⟩, h1⟩ := walk_panic hw (fun s => s.Good e ∧ s.visiting = []) ⟨hg0, rfl⟩ hkeep
    exact visit_depth e all hall depth d s1 g (by simp [v]) (hn d hd') (by simp [v]; omega) h1
  refine ⟨⟨?_, ?_⟩, hnp⟩
  · intro h
    have hw : walk (visit e depth) nodes ⟨[], [], []⟩ = .err := by
      unfold compileOrder at h
      cases hx : walk (visit e depth) nodes ⟨[], [], []⟩ with
      | ok s => rw [hx] at h; cases h
      | err => rfl
      | panic => rw [hx] at h; cases h
    obtain ⟨d, hd', s1, ⟨g, v⟩, h1⟩ := walk_err hw (fun s => s.Good e ∧ s.visiting = []) ⟨hg0, rfl⟩ hkeep
    obtain ⟨q, hq⟩ := visit_err e depth d s1 g (by simp [v]) h1
    exact ⟨d, hd', q, hq⟩
  · rintro ⟨p, hp, q, hr, hc⟩
    cases h : compileOrder e nodes depth with
    | err => rfl
    | panic => exact absurd h hnp
    | ok l =>
      obtain ⟨s, -, g, m, -⟩ := order_state h
      have hq : q ∈ s.result := ordered_closed g.ordered (List.append_nil _).symm hr (m p hp)
      exact absurd hc (ordered_acyclic g.ordered g.nodup hq)

-- the diamond
example : compileOrder (fun p => if p = lit "r" then [lit "a", lit "b"] else if p = lit "a" ∨ p = lit "b" then [lit "c"] else [])
    [lit "c", lit "r", lit "b", lit "a"] 5 = .ok [lit "r", lit "b", lit "a", lit "c"] := by decide +kernel

-- the order of the packages in the graph changes the order, but not that importers are first
example : compileOrder (fun p => if p = lit "r" then [lit "a", lit "b"] else if p = lit "a" ∨ p = lit "b" then [lit "c"] else [])
    [lit "b", lit "r", lit "a", lit "c"] 5 = .ok [lit "r", lit "a", lit "b", lit "c"] := by decide +kernel

theorem edges_of_mem {g : Graph} (hn : (g.map (·.1)).Nodup) {x : Str × Node} (hx : x ∈ g) : g.edges x.1 = x.2.deps := by
  unfold Graph.edges
  induction g with
  | nil => simp at hx
  | cons y g ih =>
    rw [List.map_cons, List.nodup_cons] at hn
    rcases List.mem_cons.1 hx with rfl | hx
    · simp
    · have hne : y.1 ≠ x.1 := by
        intro h
        exact hn.1 (by rw [h]; exact List.mem_map_of_mem hx)
      rw [List.find?_cons_of_neg (by simpa using hne)]
      exact ih hn.2 hx

/-- C91: for the packages that were collected, in any order, there always is an order of compilation. -/
theorem C91_collected {w : World} {u : Uni} {single : Bool} {root : Module} {loc : List Replace} {depth : Nat} {top : Str}
    (h0 : resolveVersion top root = []) {g : Graph} (h : process w u single root loc depth [] top [] [] = .ok g)
    {nodes : List Str} (hnodes : ∀ p, p ∈ nodes ↔ p ∈ g.map (·.1)) {depth' : Nat} (hd : nodes.length < depth') :
    ∃ l, compileOrder g.edges nodes depth' = .ok l ∧ l.Nodup ∧ ∀ p, p ∈ l ↔ Reach (importsOf w single root loc) top p := by
  obtain ⟨hn, hm, hnode, hac⟩ := C90_graph h0 h
  have hedge : ∀ p ∈ g.map (·.1), g.edges p = importsOf w single root loc p := by
    intro p hp
    obtain ⟨x, hx, rfl⟩ := List.mem_map.1 hp
    rw [edges_of_mem hn hx, importsOf, hnode x hx]
  have hreach : ∀ p q, p ∈ g.map (·.1) → Reach g.edges p q → q ∈ g.map (·.1) ∧ Reach (importsOf w single root loc) p q := by
    intro p q hp hr
    induction hr with
    | refl => exact ⟨hp, .refl⟩
    | step _ hd ih =>
      rw [hedge _ ih.1] at hd
      exact ⟨(hm _).2 (.step ((hm _).1 ih.1) hd), .step ih.2 hd⟩
  have hclosed : ∀ p ∈ nodes, ∀ d ∈ g.edges p, d ∈ nodes := by
    intro p hp d hd
    rw [hnodes] at hp ⊢
    exact (hreach p d hp (.step .refl hd)).1
  have hf := C91_fails_iff hclosed (fun p hp => hp) hd
  cases hc : compileOrder g.edges nodes depth' with
  | panic => exact absurd hc hf.2
  | err =>
    obtain ⟨p, hp, q, hr, d, hd', hq⟩ := hf.1.1 hc
    rw [hnodes] at hp
    have hq1 := (hreach p q hp hr).1
    have hd1 := (hreach q d hq1 (.step .refl hd')).1
    refine absurd ⟨d, ?_, (hreach d q hd1 hq).2⟩ (hac q hq1)
    rw [hedge q hq1] at hd'
    exact hd'
  | ok l =>
    obtain ⟨h1, h2⟩ := C91_each_once hc
    refine ⟨l, rfl, h1, fun p => ?_⟩
    rw [h2, ← hm]
    constructor
    · rintro ⟨q, hq, hr⟩
      rw [hnodes] at hq
      exact (hreach q p hq hr).1
    · intro hp
      exact ⟨p, (hnodes p).2 hp, .refl⟩

/-! ### C92: who may import -/

theorem hasSuffix_iff (t s : Str) : hasSuffix t s = true ↔ ∃ a, s = a ++ t := by
  rw [hasSuffix, List.isSuffixOf_iff_suffix]
  constructor
  · rintro ⟨a, rfl⟩
    exact ⟨a, rfl⟩
  · rintro ⟨a, rfl⟩
    exact ⟨a, rfl⟩

theorem trimSuffix_append (a t : Str) : trimSuffix t (a ++ t) = a := by
  rw [trimSuffix, if_pos ((hasSuffix_iff t _).2 ⟨a, rfl⟩)]
  simp

/-- C92: a module with rules lets in exactly those that one of them names: all, the module itself, or those whose path begins with
what stands before `/*`. -/
theorem C92_check_iff_partial (current : Str) (m : Module) :
    checkACL current m = true ↔ ∃ a ∈ m.acls, a = lit "*" ∨ a = lit "public" ∨ a = current ∨
      ∃ pre rest, a = pre ++ lit "/*" ∧ current = pre ++ rest := by
  have hl : ∀ a, aclLets current a = true ↔ a = lit "*" ∨ a = lit "public" ∨ a = current ∨
      ∃ pre rest, a = pre ++ lit "/*" ∧ current = pre ++ rest := by
    intro a
    unfold aclLets
    split
    · rename_i h
      simp only [true_iff]
      rcases h with h | h
      · exact .inl h
      · exact .inr (.inl h)
    · rename_i h
      rw [not_or] at h
      split
      · rename_i h2
        simp [h2]
      · rename_i h2
        split
        · rename_i h3
          obtain ⟨pre, rfl⟩ := (hasSuffix_iff _ _).1 h3
          rw [trimSuffix_append, Str.hasPrefix, List.isPrefixOf_iff_prefix]
          constructor
          · rintro ⟨rest, rfl⟩
            exact .inr (.inr (.inr ⟨pre, rest, rfl, rfl⟩))
          · rintro (h4 | h4 | h4 | ⟨pre', rest, h4, rfl⟩)
            · exact absurd h4 h.1
            · exact absurd h4 h.2
            · exact absurd h4 h2
            · have := List.append_cancel_right h4
              subst this
              exact ⟨rest, rfl⟩
        · rename_i h3
          constructor
          · intro h4; cases h4
          · rintro (h4 | h4 | h4 | ⟨pre', rest, h4, rfl⟩)
            · exact absurd h4 h.1
            · exact absurd h4 h.2
            · exact absurd h4 h2
            · exact absurd ((hasSuffix_iff _ _).2 ⟨pre', h4⟩) h3
  unfold checkACL
  split
  · rename_i h
    simp [h]
  · rw [List.any_eq_true]
    constructor
    · rintro ⟨a, ha, h⟩
      exact ⟨a, ha, (hl a).1 h⟩
    · rintro ⟨a, ha, h⟩
      exact ⟨a, ha, (hl a).2 h⟩

/-- C92 is violated: a rule for the modules below a path lets in modules that are not below it but whose path begins alike. -/
theorem C92_alike_let_in (pre rest : Str) (m : Module) (h : pre ++ lit "/*" ∈ m.acls) : checkACL (pre ++ rest) m = true :=
  (C92_check_iff_partial _ m).2 ⟨_, h, .inr (.inr (.inr ⟨pre, rest, rfl, rfl⟩))⟩

example : checkACL (lit "github.com/acme-evil/app") ⟨lit "github.com/acme/db", [], [], [lit "github.com/acme/*"]⟩ = true :=
  C92_alike_let_in (lit "github.com/acme") (lit "-evil/app") _ (by decide)

section

variable {w : World} {u : Uni} {single : Bool} {root : Module} {loc : List Replace}

/-- C92 is violated: the claw.mod file of a package that is not at a local path is not looked at, whoever may import it, be it in the
same repository or in another one. -/
theorem C92_not_enforced {depth : Nat} {top : Str} (h0 : resolveVersion top root = []) {g : Graph}
    (h : process w u single root loc depth [] top [] [] = .ok g)
    (hl : ∀ p, Reach (importsOf w single root loc) top p → isLocalPath (applyReplace p root loc) = true →
      w.mod (applyReplace p root loc) = none) : validateACLs root g = true := by
  obtain ⟨-, hm, -, -⟩ := C90_graph h0 h
  rw [← h0] at h
  have hp := process_ok depth [] top [] g good_empty h
  rw [validateACLs, List.all_eq_true]
  intro x hx
  have hnone : x.2.mod = none := by
    rw [(hp.good.node x hx).2, moduleFile]
    split
    · rename_i hloc
      rw [hl x.1 ((hm x.1).1 (List.mem_map_of_mem hx)) hloc]
    · rfl
  rw [hnone]

/-- C92 is violated even for packages at local paths: a claw.mod file with a list of those who may import the package is taken for
none, so that everybody may. -/
theorem C92_lists_not_enforced (p : Str) {path : Str} (hp : Mod.Word path) {t : Option Bytes} (ht : Mod.TailOk t)
    {ss : List Mod.Sect} (hs : ∀ s ∈ ss, s.Ok) (h1 : Mod.replaceBlocks ss ≤ 1) (h2 : Mod.publicLines ss ≤ 1) {ind acl : Bytes}
    (hi : Text.BlankText ind) (ha : Mod.Word acl) (body : Bytes)
    (hw : w.mod p = some (Mod.modFile path t ss ++ (lit "acls (\n" ++ ind ++ acl ++ [10] ++ body))) : moduleFile w u p = none := by
  rw [moduleFile, hw]
  simp only [Mod.C86_list_refused u hp ht hs h1 h2 hi ha body]
  simp

/-- C92 where it holds: a package at a local path whose claw.mod file says nothing of who may import it is refused. -/
theorem C92_private_refused_partial {depth : Nat} {top : Str} (h0 : resolveVersion top root = []) {workRepo : Str} {p : Str}
    (hr : Reach (importsOf w false root loc) top p) (hl : isLocalPath (applyReplace p root loc) = true) {text : Bytes}
    (hw : w.mod (applyReplace p root loc) = some text) {m : Module} (hm : Mod.parseModule u text = .ok m) (hacl : m.acls = []) (g : Graph) :
    vendorDeps w u depth workRepo root loc top ≠ .ok g := by
  intro h
  simp only [vendorDeps, Out.bind_eq_ok] at h
  obtain ⟨_, _, g', hg, _, hv, h⟩ := h
  obtain ⟨-, hmem, -, -⟩ := C90_graph h0 hg
  rw [← h0] at hg
  have hp := process_ok depth [] top [] g' good_empty hg
  obtain ⟨x, hx, hxp⟩ := List.mem_map.1 ((hmem p).2 hr)
  have hmod : x.2.mod = some m := by
    rw [(hp.good.node x hx).2, hxp, moduleFile, if_pos hl, hw]
    simp only [hm]
  have hva : validateACLs root g' = true := by
    cases hv' : validateACLs root g' with
    | true => rfl
    | false => rw [hv'] at hv; cases hv
  rw [validateACLs, List.all_eq_true] at hva
  have := hva x hx
  rw [hmod] at this
  simp [checkACL, hacl] at this

end

-- claw.mod replaces `a` by a private package at a local path
example : (vendorDeps { diamond with
      claw := fun p => if p = lit "/r" then some [lit "a"] else if p = lit "../a" then some [] else none
      mod := fun _ => some (lit "module x/a\n") } Mod.ascii 5 (lit "m")
    ⟨lit "m/n", [], [⟨lit "a", lit "../a"⟩], []⟩ [] (lit "/r")).bind (fun g => .ok (g.map (·.1))) = .err := by
  decide +kernel

-- it may be imported as soon as it lists the one module that may do so
example : (vendorDeps { diamond with
      claw := fun p => if p = lit "/r" then some [lit "a"] else if p = lit "../a" then some [] else none
      mod := fun _ => some (lit "module x/a\nacls (\n  only/this\n)\n") } Mod.ascii 5 (lit "m")
    ⟨lit "m/n", [], [⟨lit "a", lit "../a"⟩], []⟩ [] (lit "/r")).bind (fun g => .ok (g.map (·.1))) = .ok [lit "/r", lit "a"] := by
  decide +kernel

end Claw.Vendor
