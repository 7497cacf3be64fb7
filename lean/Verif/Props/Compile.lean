import Verif.Lemmas.Compile
import Verif.Props.Vendor
import Verif.Props.ModFile

/-!
# `clawc` compiles a schema and what it needs (C140)
-/

namespace Claw.Compile

open Claw.Idl (Out Uni)
open Claw.Mod (Module splitBy)
open Claw.VendorDir
open Claw.Graph
open Claw.Vendor (World Graph hasSuffix inRepo absRel readRel localRel isLocalDependency applyReplace resolveVersion read readVendored readTop
  vendorDeps compileOrder splitStr joinStr importsOf edgesOf isLocalPath)

variable {b : Box} {u : Uni} {depth : Nat} {dir : Dir} {name : Str} {ws : List (Dir × Str)}

/-- `p` is needed by the schema: it imports it, directly or through others. -/
abbrev Needed (b : Box) (root : Module) (dir : Dir) (name p : Str) : Prop :=
  Reach (importsOf b.world false root []) (pathOf (name :: dir)) p

/-- claw.mod beside the schema. -/
abbrev RootModule (b : Box) (u : Uni) (dir : Dir) (root : Module) : Prop :=
  ∃ text, fileAt b.fs dir (lit "claw.mod") = some text ∧ Mod.parseModule u text = .ok root

/-- Go takes all nodes of a graph, in some order. -/
abbrev Shuffles (b : Box) : Prop := ∀ g : Graph, (b.shuffle g).Perm (g.map (·.1))

/-- What is so once the packages are vendored. -/
structure Pre (b : Box) (dir : Dir) (name : Str) (root : Module) (g : Graph) (fs : FS) : Prop where
  nodup : (g.map (·.1)).Nodup
  needed : ∀ p, p ∈ g.map (·.1) ↔ Needed b root dir name p
  node : ∀ x ∈ g, Vendor.got b.world false root [] x.1 = .ok (x.2.deps, x.2.shouldVendor)
  acyclic : ∀ p ∈ g.map (·.1), ¬ Cyclic (importsOf b.world false root []) p
  made : create b.vendorDir b.fs (b.pkgs root g) = .ok fs

/-- All there is to know of a run that succeeds. -/
structure Run (b : Box) (u : Uni) (depth : Nat) (dir : Dir) (name : Str) (root : Module) (ws : List (Dir × Str)) (g : Graph) (fs : FS)
    (m : Str) (deps got : List Str) : Prop extends Pre b dir name root g fs where
  one : Shuffles b → ∀ p, Needed b root dir name p → ∃ x, b.compileOne u depth fs (pathOf (name :: dir)) p = .ok x ∧ ∀ w ∈ x, w ∈ ws
  every : ∀ w ∈ ws, (∃ p x, b.compileOne u depth fs (pathOf (name :: dir)) p = .ok x ∧ w ∈ x) ∨ w ∈ got.map fun p => (b.dirOf p, p)
  imports : (fileAt fs dir name).bind b.schema = some deps
  module : modulePath u fs dir = .ok m
  read : readTop (readVendored (b.vendoredFile fs) depth) m deps = .ok got
  mem : ∀ p ∈ got, (b.dirOf p, p) ∈ ws

theorem run {root : Module} (hm : RootModule b u dir root) (h : b.compile u depth dir name = .ok ws) :
    ∃ g fs m deps got, Run b u depth dir name root ws g fs m deps got := by
  obtain ⟨text', root', g, fs, order, x, deps, y, h1, h2, h3, h4, h5, h6, h7, h8, rfl⟩ := compile_ok h
  obtain ⟨text, t1, t2⟩ := hm
  rw [t1] at h1
  cases h1
  rw [t2] at h2
  cases h2
  simp only [vendorDeps, Out.bind_eq_ok] at h3
  obtain ⟨_, _, g', h3, _, _, hg⟩ := h3
  cases hg
  have h0 : resolveVersion (pathOf (name :: dir)) root = [] := by
    simp [resolveVersion, (Mod.C86_no_versions_no_lists u text' root t2).1]
  obtain ⟨k1, k2, k3, k4⟩ := Vendor.C90_graph h0 h3
  obtain ⟨m, got, r1, r2, r3, r4⟩ := readAndWrite_ok h8
  obtain ⟨c1, c2⟩ := compileAll_ok h6
  refine ⟨g, fs, m, deps, got, ⟨⟨k1, k2, k3, k4, h4⟩, ?_, ?_, h7, r1, r2, ?_⟩⟩
  · intro hs p hp
    have : p ∈ order := ((Vendor.C91_each_once h5).2 p).2 ⟨p, (hs g).mem_iff.2 ((k2 p).2 hp), .refl⟩
    obtain ⟨z, hz, hw⟩ := c1 p this
    exact ⟨z, hz, fun w hx => List.mem_append.2 (.inl (hw w hx))⟩
  · intro w hw
    rcases List.mem_append.1 hw with hw | hw
    · obtain ⟨p, _, z, hz, hw⟩ := c2 w hw
      exact .inl ⟨p, z, hz, hw⟩
    · rw [r3] at hw
      exact .inr hw
  · intro p hp
    rw [r3]
    exact List.mem_append.2 (.inr (List.mem_map.2 ⟨p, hp, rfl⟩))

/-! ### The file system before and after vendoring -/

/-- Package paths that are vendored are plain. -/
abbrev CleanPaths (b : Box) (root : Module) (dir : Dir) (name : Str) : Prop :=
  ∀ p ds, Needed b root dir name p → Vendor.got b.world false root [] p = .ok (ds, true) → Clean p

section

variable {root : Module} {g : Graph} {fs : FS} {m : Str} {deps got : List Str}

theorem Pre.pkg (r : Pre b dir name root g fs) {q : Pkg} (hq : q ∈ b.pkgs root g) :
    Needed b root dir name q.path ∧ q.mod = none ∧ ∃ ds, Vendor.got b.world false root [] q.path = .ok (ds, q.shouldVendor) := by
  simp only [Box.pkgs, List.mem_map] at hq
  obtain ⟨x, hx, rfl⟩ := hq
  exact ⟨(r.needed _).1 (List.mem_map.2 ⟨x, hx, rfl⟩), rfl, _, r.node x hx⟩

theorem Pre.created (r : Pre b dir name root g fs) (hc : CleanPaths b root dir name) :
    (∀ p ∈ b.pkgs root g, p.shouldVendor = true → Has b.vendorDir fs p) ∧
    (∀ e n, ¬ n :: e <:+ b.vendorDir → (∀ p ∈ b.pkgs root g, p.shouldVendor = true → ¬ Touches b.vendorDir p e n) → get fs e n = get b.fs e n) ∧
    ∀ e n, n :: e <:+ b.vendorDir → get b.fs e n = some .dir → get fs e n = some .dir := by
  refine create_ok (fun p hp hs => ?_) ?_ r.made
  · obtain ⟨h1, _, ds, h3⟩ := r.pkg hp
    exact hc p.path ds h1 (hs ▸ h3)
  · have : (b.pkgs root g).map (·.path) = g.map (·.1) := by simp [Box.pkgs]
    rw [this]
    exact r.nodup

/-- What is neither below the vendor directory nor on the way to it stays. -/
theorem Pre.same (r : Pre b dir name root g fs) (hc : CleanPaths b root dir name) {e : Dir} {n : Str}
    (h2 : ¬ b.vendorDir <:+ e) (h3 : ¬ n :: e <:+ b.vendorDir) : get fs e n = get b.fs e n := by
  refine (r.created hc).2.1 e n h3 fun p hp hs => not_touched ?_ h2 h3
  obtain ⟨k1, _, ds, k3⟩ := r.pkg hp
  exact hc p.path ds k1 (hs ▸ k3)

/-- Nothing on the way to the vendor directory is taken for a schema or a module. -/
abbrev PlainVendor (b : Box) : Prop := ∀ n ∈ b.vendorDir, hasSuffix (lit ".claw") n = false ∧ n ≠ lit "claw.mod"

theorem Pre.isDir (r : Pre b dir name root g fs) (hc : CleanPaths b root dir name) {d : Dir} (hd : ¬ b.vendorDir <:+ d)
    (h : VendorDir.isDir b.fs d = true) : VendorDir.isDir fs d = true := by
  cases d with
  | nil => rfl
  | cons n e =>
    simp only [VendorDir.isDir, decide_eq_true_eq] at h ⊢
    by_cases hv : n :: e <:+ b.vendorDir
    · exact (r.created hc).2.2 e n hv h
    · rw [r.same hc (fun q => hd (q.trans (List.suffix_cons _ _))) hv]
      exact h

/-- Schemas outside of the vendor directory are what they were. -/
theorem Pre.schema (r : Pre b dir name root g fs) (hc : CleanPaths b root dir name) (ho : Once b.fs)
    (hv : PlainVendor b) {d : Dir} (hd : ¬ b.vendorDir <:+ d) {ds : List Str} (h : schemaIn b.schema b.fs d = some ds) :
    schemaIn b.schema fs d = some ds := by
  unfold schemaIn at h ⊢
  have hsame : ∀ n, hasSuffix (lit ".claw") n = true → get fs d n = get b.fs d n := by
    intro n hn
    refine r.same hc hd fun q => ?_
    have := (hv n (q.subset (by simp))).1
    rw [hn] at this
    cases this
  cases hf : findClaw b.fs d with
  | err => rw [hf] at h; cases h
  | panic => rw [hf] at h; cases h
  | ok n =>
    rw [hf] at h
    obtain ⟨h1, h2⟩ := (findClaw_iff ho d n).1 hf
    have hn : hasSuffix (lit ".claw") n = true := by
      exact (h2 (lit ".claw") (by decide)).2.1
    have hf' : findClaw fs d = .ok n := by
      rw [findClaw_iff (once_create ho r.made)]
      refine ⟨r.isDir hc hd h1, fun x hx => ?_⟩
      rw [hsame x hx, hsame n hn]
      exact h2 x hx
    rw [hf']
    simp only [fileAt, hsame n hn] at h ⊢
    exact h

theorem Pre.modulePath (r : Pre b dir name root g fs) (u : Uni) (hc : CleanPaths b root dir name)
    (hv : PlainVendor b) {d : Dir} (hd : ¬ b.vendorDir <:+ d) : Compile.modulePath u fs d = Compile.modulePath u b.fs d := by
  unfold Compile.modulePath
  rw [r.same hc hd fun q => (hv _ (q.subset (by simp))).2 rfl]

end

/-! ### Where the code goes -/

/-- C140: whatever is written of a package is written to the directory that is its own: that of its path in the git repository, or in the
vendor directory. -/
theorem C140_places (h : b.compile u depth dir name = .ok ws) : ∀ x ∈ ws, x.1 = b.dirOf x.2 := by
  have hrw : ∀ {fs d deps y}, b.readAndWrite u depth fs d deps = .ok y → ∀ x ∈ y, x.1 = b.dirOf x.2 := by
    intro fs d deps y hy x hx
    obtain ⟨m, got, -, -, rfl, -⟩ := readAndWrite_ok hy
    obtain ⟨p, -, rfl⟩ := List.mem_map.1 hx
    rfl
  obtain ⟨_, _, g, fs, order, x, deps, y, -, -, -, -, -, h6, -, h8, rfl⟩ := compile_ok h
  intro w hw
  rcases List.mem_append.1 hw with hw | hw
  · obtain ⟨p, -, z, hz, hw⟩ := (compileAll_ok h6).2 w hw
    unfold Box.compileOne at hz
    split at hz
    · cases hz; cases hw
    · split at hz
      · simp only [Box.compileLocal, Out.bind_eq_ok] at hz
        obtain ⟨rel, -, deps, -, m, -, hz⟩ := hz
        cases hg : b.git with
        | none =>
          rw [hg] at hz
          simp only [] at hz
          split at hz <;> cases hz
        | some or =>
          rw [hg] at hz
          simp only [Out.bind_eq_ok] at hz
          obtain ⟨got, -, _, -, hz⟩ := hz
          obtain ⟨rfl, -⟩ := write_ok hz
          obtain ⟨q, hq, rfl⟩ := List.mem_map.1 hw
          simp only [Box.dirOf, hg, (List.mem_filter.1 hq).2, if_true]
      · simp only [Box.compileVendored, Out.bind_eq_ok] at hz
        obtain ⟨deps, -, hz⟩ := hz
        exact hrw hz w hw
  · exact hrw h8 w hw

/-- C140 is violated outside of a git repository: all code goes to the vendor directory, that of the schema too, and nothing that is needed
is a package of the repository of claw.work: with one, clawc fails. -/
theorem C140_outside_git {root : Module} (hm : RootModule b u dir root) (hg : b.git = none) (h : b.compile u depth dir name = .ok ws) :
    (∀ x ∈ ws, x.1 = pkgDir b.vendorDir x.2) ∧
    (Shuffles b → ∀ p, Needed b root dir name p → Str.contains p (pathOf (name :: dir)) = false → isLocalDependency b.repo p = false) := by
  constructor
  · intro x hx
    rw [C140_places h x hx, Box.dirOf, hg]
  · intro hs p hp hc
    obtain ⟨g, fs, m, deps, got, r⟩ := run hm h
    obtain ⟨z, hz, -⟩ := r.one hs p hp
    by_cases hl : isLocalDependency b.repo p = true
    · rw [Box.compileOne, if_neg (by simp [hc]), if_pos hl] at hz
      simp only [Box.compileLocal, Out.bind_eq_ok, hg] at hz
      obtain ⟨rel, -, deps, -, m, -, hz⟩ := hz
      split at hz <;> cases hz
    · simpa using hl

/-! ### Everything that is needed is written -/

/-- A package of the repository `o` at `r`, outside of the vendor directory. -/
def Inside (b : Box) (o : Str) (r : Dir) (p rel : Str) : Prop :=
  p = o ++ lit "/" ++ rel ∧ Clean rel ∧ Str.contains (lit "/" ++ rel) o = false ∧ ¬ b.vendorDir <:+ pkgDir r rel

/-- A package of another repository. -/
def Outside (o p : Str) : Prop := Str.hasPrefix o p = false ∧ Clean p

theorem no_slash : ∀ {s x : Str}, x ∈ splitBy 47 s → 47 ∉ x
  | [], x, h => by simp only [splitBy, List.mem_singleton] at h; subst h; simp
  | c :: s, x, h => by
    simp only [splitBy] at h
    cases hs : splitBy 47 s with
    | nil => exact absurd hs (splitBy_ne s)
    | cons p ps =>
      have ih : ∀ y ∈ p :: ps, (47 : UInt8) ∉ y := fun y hy => no_slash (hs ▸ hy)
      rw [hs] at h
      simp only [] at h
      split at h
      · rcases List.mem_cons.1 h with rfl | h
        · simp
        · exact ih x h
      · rename_i hc
        rcases List.mem_cons.1 h with rfl | h
        · simp only [List.mem_cons, not_or]
          exact ⟨fun e => hc e.symm, ih p (by simp)⟩
        · exact ih x (by simp [h])

theorem pathOf_cons (x : Str) (d : Dir) : ∃ s, pathOf (x :: d) = s ++ 47 :: x := by
  have hj : ∀ (l : List Str), ∃ s, lit "/" ++ joinStr (lit "/") (l ++ [x]) = s ++ 47 :: x := by
    intro l
    induction l with
    | nil => exact ⟨[], rfl⟩
    | cons y l ih =>
      obtain ⟨s, hs⟩ := ih
      refine ⟨lit "/" ++ y ++ s, ?_⟩
      cases hl : l ++ [x] with
      | nil => simp at hl
      | cons z l' =>
        rw [List.cons_append, hl, joinStr]
        · rw [hl] at hs
          rw [List.append_assoc y, hs]
          simp
        · simp
  obtain ⟨s, hs⟩ := hj d.reverse
  exact ⟨s, by rw [pathOf, List.reverse_cons]; exact hs⟩

/-- The path of a directory ends like its name. -/
theorem pathOf_suffix {x : Str} {d : Dir} (h : hasSuffix (lit ".claw") x = false) : hasSuffix (lit ".claw") (pathOf (x :: d)) = false := by
  obtain ⟨s, hs⟩ := pathOf_cons x d
  rw [hs]
  cases hx : hasSuffix (lit ".claw") (s ++ 47 :: x) with
  | false => rfl
  | true =>
    exfalso
    unfold hasSuffix at hx h
    rw [List.isSuffixOf_iff_suffix] at hx
    have h2 : (47 :: x) <:+ s ++ 47 :: x := List.suffix_append _ _
    have h47 : (47 : UInt8) ∉ lit ".claw" := by decide
    rcases List.suffix_or_suffix_of_suffix hx h2 with h3 | h3
    · rcases List.suffix_cons_iff.1 h3 with h3 | h3
      · exact h47 (by rw [h3]; simp)
      · rw [← List.isSuffixOf_iff_suffix, h] at h3
        cases h3
    · exact h47 (h3.subset (by simp))

theorem plain_below {r : Dir} (hr : Plain r) {rel : Str} (hc : Clean rel) : Plain (pkgDir r rel) := by
  rw [pkgDir_clean r hc]
  intro x hx
  rcases List.mem_append.1 hx with hx | hx
  · have hx := List.mem_reverse.1 hx
    obtain ⟨h1, h2, h3⟩ := hc.names x hx
    exact ⟨h1, h2, h3, no_slash hx⟩
  · exact hr x hx

theorem claw_below {r : Dir} (hr : Plain r) {rel : Str} (hc : Clean rel) : b.claw (pathOf (pkgDir r rel)) = schemaIn b.schema b.fs (pkgDir r rel) := by
  have hs : hasSuffix (lit ".claw") (pathOf (pkgDir r rel)) = false := by
    have hd := pkgDir_clean r hc
    cases hl : (splitBy 47 rel).reverse with
    | nil => exact absurd (List.reverse_eq_nil_iff.1 hl) (splitBy_ne rel)
    | cons x l =>
      rw [hd, hl]
      exact pathOf_suffix (hc.claw x (List.mem_reverse.1 (by rw [hl]; simp)))
  rw [Box.claw, if_neg (by simp [hs]), locate_pathOf b (plain_below hr hc)]

theorem got_inside {root : Module} (hrep : root.replace = []) {o : Str} {r : Dir} (hgit : b.git = some (o, r)) (ho : o ≠ []) (hr : Plain r)
    {p rel : Str} (hp : Inside b o r p rel) (hl : isLocalPath p = false) {ds : List Str} {sv : Bool}
    (h : Vendor.got b.world false root [] p = .ok (ds, sv)) : sv = false ∧ schemaIn b.schema b.fs (pkgDir r rel) = some ds := by
  obtain ⟨hpe, hcl, hct, -⟩ := hp
  have ha : applyReplace p root [] = p := by simp [applyReplace, hrep]
  obtain ⟨-, -, -, h4, h5, -⟩ := Vendor.C94_inside_partial (rel := rel) ho [] hct
  rw [← hpe] at h4 h5
  have hw : b.world.git = some (inRepo o, fun p => some (pathOf (down r (splitBy 47 (absRel o p))))) := by simp [Box.world, hgit]
  rw [Vendor.got, ha, Vendor.fetch, if_neg (by simp [hl]), hw] at h
  simp only [h4, if_true, h5] at h
  rw [show b.world.claw = b.claw from rfl, show down r (splitBy 47 rel) = pkgDir r rel from rfl, claw_below hr hcl] at h
  cases hs : schemaIn b.schema b.fs (pkgDir r rel) with
  | none => rw [hs] at h; cases h
  | some x => rw [hs] at h; cases h; exact ⟨rfl, rfl⟩

theorem got_outside {root : Module} (hrep : root.replace = []) {o : Str} {r : Dir} (hgit : b.git = some (o, r))
    {p : Str} (hp : Outside o p) (hl : isLocalPath p = false) {ds : List Str} {sv : Bool}
    (h : Vendor.got b.world false root [] p = .ok (ds, sv)) :
    sv = true ∧ ∃ t, b.remote (applyReplace p root []) (resolveVersion p root) = some t ∧ b.schema t = some ds := by
  have ha : applyReplace p root [] = p := by simp [applyReplace, hrep]
  have hw : b.world.git = some (inRepo o, fun p => some (pathOf (down r (splitBy 47 (absRel o p))))) := by simp [Box.world, hgit]
  have hi : inRepo o p = false := hp.1
  rw [Vendor.got, ha, Vendor.fetch, if_neg (by simp [hl]), hw] at h
  simp only [hi, Bool.false_eq_true, if_false] at h
  rw [show b.world.remote p (resolveVersion p root) = (b.remote p (resolveVersion p root)).bind b.schema from rfl] at h
  rw [ha]
  cases hs : b.remote p (resolveVersion p root) with
  | none => rw [hs] at h; cases h
  | some t =>
    rw [hs] at h
    simp only [Option.bind_some] at h
    cases ht : b.schema t with
    | none => rw [ht] at h; cases h
    | some x => rw [ht] at h; cases h; exact ⟨rfl, t, rfl, ht⟩

/-- A repository as `clawc init` leaves it: git knows it, no package is replaced, the names are plain. -/
structure Usual (b : Box) (root : Module) (dir : Dir) (name o : Str) (r : Dir) : Prop where
  git : b.git = some (o, r)
  origin : o ≠ []
  once : Once b.fs
  plain : Plain r
  place : Plain (name :: dir)
  schema : hasSuffix (lit ".claw") name = true
  vendor : PlainVendor b
  beside : ¬ b.vendorDir <:+ dir
  replace : root.replace = []
  paths : ∀ p, Needed b root dir name p → p ≠ pathOf (name :: dir) → isLocalPath p = false ∧ ((∃ rel, Inside b o r p rel) ∨ Outside o p)

theorem Usual.clean {root : Module} {o : Str} {r : Dir} (hu : Usual b root dir name o r) : CleanPaths b root dir name := by
  intro p ds hp hg
  by_cases ht : p = pathOf (name :: dir)
  · exfalso
    subst ht
    have ha : applyReplace (pathOf (name :: dir)) root [] = pathOf (name :: dir) := by simp [applyReplace, hu.replace]
    have hl : isLocalPath (pathOf (name :: dir)) = true := by simp [isLocalPath, pathOf, Str.hasPrefix]
    rw [Vendor.got, ha, Vendor.fetch, if_pos hl] at hg
    split at hg <;> cases hg
  · obtain ⟨hl, ⟨rel, hi⟩ | ho⟩ := hu.paths p hp ht
    · have := (got_inside hu.replace hu.git hu.origin hu.plain hi hl hg).1
      cases this
    · exact ho.2

/-- C140: when clawc succeeds, code has been written for the schema and for everything it needs: for packages of the repository beside their
schemas, for others in the vendor directory. -/
theorem C140_written_partial {root : Module} {o : Str} {r : Dir} (hm : RootModule b u dir root) (hu : Usual b root dir name o r)
    (h : b.compile u depth dir name = .ok ws) :
    (b.dirOf root.path, root.path) ∈ ws ∧
    ∀ p, Needed b root dir name p → p ≠ pathOf (name :: dir) →
      (∀ rel, Inside b o r p rel → (pkgDir r rel, p) ∈ ws) ∧ (Outside o p → (pkgDir b.vendorDir p, p) ∈ ws) := by
  obtain ⟨g, fs, m, deps, got, R⟩ := run hm h
  have hc := hu.clean
  obtain ⟨gg, hgot, k1, k2, k3, -, -⟩ := readTop_closed R.read
  -- the module and the imports of the file to be compiled
  have hmod : m = root.path := by
    have := R.module
    rw [R.modulePath u hc hu.vendor hu.beside, modulePath] at this
    obtain ⟨text, t1, t2⟩ := hm
    unfold fileAt at t1
    cases hg : get b.fs dir (lit "claw.mod") with
    | none => rw [hg] at t1; cases t1
    | some x =>
      rw [hg] at t1 this
      cases x with
      | dir => cases t1
      | file t =>
        cases t1
        simp only [t2, Out.ok_bind] at this
        cases this
        rfl
  have htop : importsOf b.world false root [] (pathOf (name :: dir)) = deps := by
    have hx := (R.needed _).2 .refl
    obtain ⟨x, hx, hxe⟩ := List.mem_map.1 hx
    have hgn := R.node x hx
    rw [hxe] at hgn
    rw [importsOf, hgn]
    have ha : applyReplace (pathOf (name :: dir)) root [] = pathOf (name :: dir) := by simp [applyReplace, hu.replace]
    have hl : isLocalPath (pathOf (name :: dir)) = true := by simp [isLocalPath, pathOf, Str.hasPrefix]
    rw [Vendor.got, ha, Vendor.fetch, if_pos hl, show b.world.claw = b.claw from rfl] at hgn
    have hsx : hasSuffix (lit ".claw") (pathOf (name :: dir)) = true := by
      obtain ⟨s, hs⟩ := pathOf_cons name dir
      have := hu.schema
      unfold hasSuffix at this ⊢
      rw [List.isSuffixOf_iff_suffix] at this ⊢
      rw [hs]
      exact this.trans ((List.suffix_cons _ _).trans (List.suffix_append _ _))
    rw [Box.claw, if_pos hsx, locate_pathOf b hu.place] at hgn
    have hsame : get fs dir name = get b.fs dir name := R.same hc hu.beside fun q => by
      have := (hu.vendor name (q.subset (by simp))).1
      rw [hu.schema] at this
      cases this
    have hi := R.imports
    simp only [fileAt, hsame] at hi
    simp only [fileAt] at hgn
    rw [hi] at hgn
    simp only [Out.ok.injEq, Prod.mk.injEq] at hgn
    exact hgn.1.symm
  -- what is read of the packages is what was collected
  have agree : ∀ p, Needed b root dir name p → p ≠ pathOf (name :: dir) → p ∈ gg →
      b.vendoredFile fs p = some (importsOf b.world false root [] p) := by
    intro p hp hne hin
    obtain ⟨x, hx, hxe⟩ := List.mem_map.1 ((R.needed p).2 hp)
    have hgn := R.node x hx
    rw [hxe] at hgn
    have himp : importsOf b.world false root [] p = x.2.deps := by rw [importsOf, hgn]
    obtain ⟨hl, ⟨rel, hi⟩ | ho⟩ := hu.paths p hp hne
    · obtain ⟨-, hs⟩ := got_inside hu.replace hu.git hu.origin hu.plain hi hl hgn
      have hs := R.schema hc hu.once hu.vendor hi.2.2.2 hs
      obtain ⟨-, -, -, h4, -, h6⟩ := Vendor.C94_inside_partial (rel := rel) hu.origin [] hi.2.2.1
      rw [← hi.1] at h4 h6
      simp only [Box.vendoredFile, hu.git, h4, if_true, h6]
      rw [himp]
      exact hs
    · obtain ⟨hsv, t, ht1, ht2⟩ := got_outside hu.replace hu.git ho hl hgn
      have hr := k3 p hin
      have hno : inRepo o p = false := ho.1
      have hvf : b.vendoredFile fs p = schemaIn b.schema fs (pkgDir b.vendorDir p) := by
        simp only [Box.vendoredFile, hu.git, hno, Bool.false_eq_true, if_false]
      rw [hvf] at hr ⊢
      have hpk : (⟨p, t, none, true⟩ : Pkg) ∈ b.pkgs root g := by
        simp only [Box.pkgs, List.mem_map]
        refine ⟨x, hx, ?_⟩
        rw [hxe, ht1, hsv]
        rfl
      have hh := (R.created hc).1 _ hpk rfl
      unfold schemaIn at hr ⊢
      cases hf : findClaw fs (pkgDir b.vendorDir p) with
      | err => rw [hf] at hr; cases hr
      | panic => rw [hf] at hr; cases hr
      | ok n =>
        have hn : clawName p = n := ((((findClaw_iff (once_create hu.once R.made) _ n).1 hf).2 (clawName p) (clawName_suffix p)).1).1 (by
          have := hh.schema
          simp only [] at this
          rw [this]; simp)
        simp only []
        rw [← hn, fileAt, show get fs (pkgDir b.vendorDir p) (clawName p) = some (.file t) from hh.schema, himp]
        exact ht2
  -- everything that is needed is read
  have hread : ∀ p, Needed b root dir name p → p = pathOf (name :: dir) ∨ p ∈ gg := by
    intro p hp
    induction hp with
    | refl => exact .inl rfl
    | @step a c ha hd ih =>
      rcases ih with ih | ih
      · subst ih
        rw [htop] at hd
        exact .inr (k1 c hd)
      · by_cases hat : a = pathOf (name :: dir)
        · subst hat
          rw [htop] at hd
          exact .inr (k1 c hd)
        · refine .inr (k2 a ih c ?_)
          rw [edgesOf, agree a ha hat ih]
          exact hd
  refine ⟨?_, fun p hp hne => ?_⟩
  · rw [← hmod]
    exact R.mem m (readTop_mem R.read)
  · have hin : p ∈ got := by
      rcases hread p hp with h | h
      · exact absurd h hne
      · rw [hgot]; exact List.mem_append.2 (.inl h)
    have hmem := R.mem p hin
    constructor
    · intro rel hi
      obtain ⟨-, -, -, h4, h5, -⟩ := Vendor.C94_inside_partial (rel := rel) hu.origin [] hi.2.2.1
      rw [← hi.1] at h4 h5
      have : b.dirOf p = pkgDir r rel := by simp only [Box.dirOf, hu.git, h4, if_true, h5]; rfl
      rw [this] at hmem
      exact hmem
    · intro ho
      have hno : inRepo o p = false := ho.1
      have : b.dirOf p = pkgDir b.vendorDir p := by simp only [Box.dirOf, hu.git, hno, Bool.false_eq_true, if_false]
      rw [this] at hmem
      exact hmem

/-! ### What makes it fail -/

theorem schemaIn_some {schema : Bytes → Option (List Str)} {fs : FS} {d : Dir} {ds : List Str} (h : schemaIn schema fs d = some ds) :
    ∃ n, hasSuffix (lit ".claw") n = true ∧ get fs d n ≠ none := by
  unfold schemaIn at h
  cases hf : findClaw fs d with
  | err => rw [hf] at h; cases h
  | panic => rw [hf] at h; cases h
  | ok n =>
    unfold findClaw at hf
    simp only [Out.bind_eq_ok, readDir] at hf
    obtain ⟨names, h1, h2⟩ := hf
    split at h1
    · cases h1
      split at h2
      · rename_i x hx
        cases h2
        have : n ∈ List.filter (hasSuffix (lit ".claw")) (List.map (fun x => x.1.2) (List.filter (fun e => decide (e.1.1 = d)) fs)) := by
          rw [hx]; simp
        obtain ⟨h3, h4⟩ := List.mem_filter.1 this
        exact ⟨n, h4, mem_names.1 h3⟩
      · cases h2
    · cases h1

/-- A package that is not vendored and is not one of the repository of claw.work is looked for in the vendor directory all the same. -/
theorem not_vendored {root : Module} (hm : RootModule b u dir root) (hs : Shuffles b) (hc : CleanPaths b root dir name) {p : Str}
    (hp : Needed b root dir name p) (hpc : Clean p) (hsv : ∀ x, Vendor.got b.world false root [] p = .ok x → x.2 = false)
    (hl : isLocalDependency b.repo p = false) (ht : Str.contains p (pathOf (name :: dir)) = false)
    (hn : ∀ n, hasSuffix (lit ".claw") n = true → get b.fs (pkgDir b.vendorDir p) n = none) : b.compile u depth dir name ≠ .ok ws := by
  intro h
  obtain ⟨g, fs, m, deps, got, R⟩ := run hm h
  obtain ⟨z, hz, -⟩ := R.one hs p hp
  rw [Box.compileOne, if_neg (by simp [ht]), if_neg (by simp [hl])] at hz
  simp only [Box.compileVendored, Out.bind_eq_ok] at hz
  obtain ⟨ds, hd, -⟩ := hz
  obtain ⟨n, h1, h2⟩ := schemaIn_some (ofOption_ok hd)
  apply h2
  rw [(R.created hc).2.1, hn n h1]
  · intro hx
    have := hx.length_le
    rw [pkgDir_clean _ hpc] at this
    simp at this
    omega
  · intro q hq hsq hx
    obtain ⟨k1, -, ds', k3⟩ := R.pkg hq
    rw [hsq] at k3
    have hqc := hc q.path ds' k1 k3
    rcases hx with hx | ⟨hx, -⟩ | hx
    · have he : p = q.path := pkgDir_inj hpc hqc (Prod.ext_iff.1 hx).1
      rw [← he] at k3
      have := hsv _ k3
      cases this
    · rw [show n = lit "claw.mod" from (Prod.ext_iff.1 hx).2, mod_suffix] at h1
      cases h1
    · exact not_below_claw hpc hqc h1 hx

/-- C140 is violated: a package of another repository that claw.mod replaces by one in a local directory cannot be compiled. It is read from
that directory when packages are collected, but not vendored, and then looked for in the vendor directory. -/
theorem C140_replaced {root : Module} (hm : RootModule b u dir root) (hs : Shuffles b) (hc : CleanPaths b root dir name) {p : Str}
    (hp : Needed b root dir name p) (hpc : Clean p) (hr : isLocalPath (applyReplace p root []) = true)
    (hl : isLocalDependency b.repo p = false) (ht : Str.contains p (pathOf (name :: dir)) = false)
    (hn : ∀ n, hasSuffix (lit ".claw") n = true → get b.fs (pkgDir b.vendorDir p) n = none) : b.compile u depth dir name ≠ .ok ws := by
  refine not_vendored hm hs hc hp hpc (fun x hx => ?_) hl ht hn
  rw [Vendor.got, Vendor.fetch, if_pos hr] at hx
  split at hx <;> cases hx
  rfl

/-- C140 is violated: a package of the git repository that is outside of what claw.work calls the repository cannot be compiled. -/
theorem C140_beyond_work {root : Module} (hm : RootModule b u dir root) (hs : Shuffles b) (hc : CleanPaths b root dir name) {p o : Str}
    {r : Dir} (hgit : b.git = some (o, r)) (hp : Needed b root dir name p) (hpc : Clean p) (hr : inRepo o (applyReplace p root []) = true)
    (hl : isLocalDependency b.repo p = false) (ht : Str.contains p (pathOf (name :: dir)) = false)
    (hn : ∀ n, hasSuffix (lit ".claw") n = true → get b.fs (pkgDir b.vendorDir p) n = none) : b.compile u depth dir name ≠ .ok ws := by
  refine not_vendored hm hs hc hp hpc (fun x hx => ?_) hl ht hn
  have hw : b.world.git = some (inRepo o, fun p => some (pathOf (down r (splitBy 47 (absRel o p))))) := by simp [Box.world, hgit]
  rw [Vendor.got, Vendor.fetch, hw] at hx
  simp only [hr, if_true] at hx
  split at hx
  · split at hx <;> cases hx
    rfl
  · split at hx <;> cases hx
    rfl

/-- What the compilation of a package of the repository of claw.work does. -/
theorem compiled_of {root : Module} {g : Graph} {fs : FS} {m : Str} {deps got : List Str}
    (R : Run b u depth dir name root ws g fs m deps got) (hs : Shuffles b) {o : Str} {r : Dir} (hgit : b.git = some (o, r)) {p rel : Str}
    (hp : Needed b root dir name p) (ht : Str.contains p (pathOf (name :: dir)) = false) (hrel : localRel b.repo p = some rel) :
    ∃ ds m' got', schemaIn b.schema fs (pkgDir b.workDir rel) = some ds ∧ modulePath u fs (pkgDir b.workDir rel) = .ok m' ∧
      readTop (read (b.plainFile fs o r) depth) m' ds = .ok got' ∧ ∀ q ∈ got', inRepo o q = true ∨ b.goGet q = true := by
  obtain ⟨z, hz, -⟩ := R.one hs p hp
  have hl : isLocalDependency b.repo p = true := by
    unfold localRel at hrel
    split at hrel
    · rename_i h; exact h
    · cases hrel
  rw [Box.compileOne, if_neg (by simp [ht]), if_pos hl] at hz
  simp only [Box.compileLocal, Out.bind_eq_ok, hgit, hrel] at hz
  obtain ⟨rel', h1, ds, h2, m', h3, got', h4, _, h5, -⟩ := hz
  cases ofOption_ok h1
  refine ⟨ds, m', got', ofOption_ok h2, h3, h4, ?_⟩
  have := guard_ok h5
  simpa using this

/-- C140 is violated: if a package of the repository imports one of another repository, clawc succeeds only if `go get` of the latter does, that
is, if there is Go code for it already, where it comes from: having it in the vendor directory is not enough. -/
theorem C140_go_get {root : Module} (hm : RootModule b u dir root) (hs : Shuffles b) (hc : CleanPaths b root dir name) (ho : Once b.fs)
    (hv : PlainVendor b) {o : Str} {r : Dir} (hgit : b.git = some (o, r)) {p rel : Str} (hp : Needed b root dir name p)
    (ht : Str.contains p (pathOf (name :: dir)) = false) (hrel : localRel b.repo p = some rel)
    (hd : ¬ b.vendorDir <:+ pkgDir b.workDir rel) {ds : List Str} (hds : schemaIn b.schema b.fs (pkgDir b.workDir rel) = some ds) {e : Str}
    (he : e ∈ ds) (heo : inRepo o e = false) (h : b.compile u depth dir name = .ok ws) : b.goGet e = true := by
  obtain ⟨g, fs, m, deps, got, R⟩ := run hm h
  obtain ⟨ds', m', got', h1, h2, h3, h4⟩ := compiled_of R hs hgit hp ht hrel
  rw [R.schema hc ho hv hd hds] at h1
  cases h1
  have hin : e ∈ got' := by
    rw [readTop, Out.bind_eq_ok] at h3
    obtain ⟨gg, hw, h3⟩ := h3
    cases h3
    have := Vendor.walk_ok hw (fun done x => ∀ d ∈ done, d ∈ x) (by simp) (by
      intro d hd done s1 s2 hk hx
      have hdone := Vendor.read_ok depth [m'] d s1 s2 hx
      intro y hy
      rcases List.mem_append.1 hy with hy | hy
      · exact hdone.more y (hk y hy)
      · simp only [List.mem_singleton] at hy
        subst hy
        exact (hdone.mem y .refl).1)
    exact List.mem_append.2 (.inl (this e he))
  rcases h4 e hin with h | h
  · rw [heo] at h; cases h
  · exact h

/-- C140 is violated: of a package of the repository that has no claw.mod of its own the path is guessed from its directory, and if the guess
is not a path of the repository, clawc succeeds only if there is Go code at the path that was guessed. -/
theorem C140_no_module {root : Module} (hm : RootModule b u dir root) (hs : Shuffles b) (hc : CleanPaths b root dir name)
    (hv : PlainVendor b) {o : Str} {r : Dir} (hgit : b.git = some (o, r)) {p rel : Str} (hp : Needed b root dir name p)
    (ht : Str.contains p (pathOf (name :: dir)) = false) (hrel : localRel b.repo p = some rel)
    (hd : ¬ b.vendorDir <:+ pkgDir b.workDir rel) (hno : get b.fs (pkgDir b.workDir rel) (lit "claw.mod") = none)
    (heo : inRepo o (extractModulePath (pkgDir b.workDir rel)) = false) (h : b.compile u depth dir name = .ok ws) :
    b.goGet (extractModulePath (pkgDir b.workDir rel)) = true := by
  obtain ⟨g, fs, m, deps, got, R⟩ := run hm h
  obtain ⟨ds', m', got', h1, h2, h3, h4⟩ := compiled_of R hs hgit hp ht hrel
  rw [R.modulePath u hc hv hd, modulePath, hno] at h2
  cases h2
  rcases h4 _ (readTop_mem h3) with h | h
  · rw [heo] at h; cases h
  · exact h

/-! ### Guessing the path of a package -/

theorem splitBy_pathOf {d : Dir} (hd : d ≠ []) (h : Plain d) : splitBy 47 (pathOf d) = [] :: d.reverse := by
  rw [pathOf, show lit "/" ++ joinStr (lit "/") d.reverse = 47 :: joinStr (lit "/") d.reverse from rfl, splitBy_cons_slash,
    splitBy_join (by simpa using hd) (fun y hy => (h y (by simpa using hy)).2.2.2)]

/-- No element has a dot. -/
def Dotless (d : Dir) : Prop := ∀ x ∈ d, 46 ∉ x

theorem fromDomain_skip : ∀ (a l : List Str), Dotless a → 2 ≤ l.length → fromDomain (a ++ l) = fromDomain l
  | [], l, _, _ => rfl
  | x :: a, l, h, hl => by
    have ih := fromDomain_skip a l (fun y hy => h y (by simp [hy])) hl
    have hx : List.contains x 46 = false := by
      have := h x (by simp)
      cases hc : List.contains x 46 with
      | false => rfl
      | true => exact absurd (List.contains_iff_mem.1 hc) this
    cases hal : a ++ l with
    | nil =>
      have := congrArg List.length hal
      rw [List.length_append, List.length_nil] at this
      omega
    | cons y t =>
      cases t with
      | nil =>
        have := congrArg List.length hal
        rw [List.length_append, List.length_singleton] at this
        omega
      | cons z t =>
        rw [List.cons_append, hal, fromDomain, if_neg (by rw [hx]; simp), ← hal, ih]

theorem fromDomain_here {x y z : Str} {rest : List Str} (h : 46 ∈ x) :
    fromDomain (x :: y :: z :: rest) = some (joinStr (lit "/") (x :: y :: z :: rest)) := by
  rw [fromDomain, if_pos (List.contains_iff_mem.2 h)]

theorem join_splitBy (s : Str) : joinStr (lit "/") (splitBy 47 s) = s := by
  refine splitBy_inj ?_
  rw [splitBy_join (splitBy_ne s) (fun x hx => no_slash hx)]

theorem extract_of {d : Dir} (hd : d ≠ []) (h : Plain d) (hv : Str.contains (pathOf d) (lit "/vendor/") = false) :
    extractModulePath d = ((fromDomain ([] :: d.reverse)).getD (d.headD (lit "/"))) := by
  rw [extractModulePath]
  simp only [hv, Bool.false_eq_true, if_false, splitBy_pathOf hd h]
  cases fromDomain ([] :: d.reverse) <;> rfl

/-- C140: the path of a vendored package is guessed right if it has a dot in its first element and two more elements, and no directory on the
way to the vendor directory has a dot. -/
theorem C140_guess_right {v : Dir} (hv : Plain v) (hd : Dotless v) {p x y z : Str} {rest : List Str} (hp : Clean p)
    (hs : splitBy 47 p = x :: y :: z :: rest) (hx : 46 ∈ x) (hno : Str.contains (pathOf (pkgDir v p)) (lit "/vendor/") = false) :
    extractModulePath (pkgDir v p) = p := by
  have hne : pkgDir v p ≠ [] := by rw [pkgDir_clean v hp, hs]; simp
  rw [extract_of hne (plain_below hv hp) hno, pkgDir_clean v hp, List.reverse_append, List.reverse_reverse]
  rw [show ([] : Str) :: (v.reverse ++ splitBy 47 p) = ([] :: v.reverse) ++ splitBy 47 p from rfl, fromDomain_skip, hs, fromDomain_here hx, ← hs,
    Option.getD_some, join_splitBy]
  · intro w hw
    rcases List.mem_cons.1 hw with rfl | hw
    · simp
    · exact hd w (by simpa using hw)
  · rw [hs]; simp

/-- C140 is violated: of a vendored package with a path of two elements only the last one is guessed. -/
theorem C140_guess_short {v : Dir} (hv : Plain v) (hd : Dotless v) {p x y : Str} (hp : Clean p) (hs : splitBy 47 p = [x, y])
    (hno : Str.contains (pathOf (pkgDir v p)) (lit "/vendor/") = false) : extractModulePath (pkgDir v p) = y ∧ y ≠ p := by
  have hne : pkgDir v p ≠ [] := by rw [pkgDir_clean v hp, hs]; simp
  constructor
  · rw [extract_of hne (plain_below hv hp) hno, pkgDir_clean v hp, List.reverse_append, List.reverse_reverse]
    rw [show ([] : Str) :: (v.reverse ++ splitBy 47 p) = ([] :: v.reverse) ++ splitBy 47 p from rfl, fromDomain_skip, hs]
    · rfl
    · intro w hw
      rcases List.mem_cons.1 hw with rfl | hw
      · simp
      · exact hd w (by simpa using hw)
    · rw [hs]; simp
  · rintro rfl
    have := splitBy_plain y (no_slash (s := y) (by rw [hs]; simp))
    rw [this] at hs
    cases hs

/-- C140 is violated: if a directory on the way to the vendor directory has a dot, the path of no vendored package is guessed right. -/
theorem C140_guess_dotted {below above : Dir} {w : Str} (hw : 46 ∈ w) (hv : Plain (below ++ w :: above)) (hd : Dotless above) {p : Str}
    (hp : Clean p) (hb : below ≠ []) (hno : Str.contains (pathOf (pkgDir (below ++ w :: above) p)) (lit "/vendor/") = false) :
    extractModulePath (pkgDir (below ++ w :: above) p) = joinStr (lit "/") (w :: (below.reverse ++ splitBy 47 p)) ∧
    extractModulePath (pkgDir (below ++ w :: above) p) ≠ p := by
  have hne : pkgDir (below ++ w :: above) p ≠ [] := by rw [pkgDir_clean _ hp]; simp
  have he : extractModulePath (pkgDir (below ++ w :: above) p) = joinStr (lit "/") (w :: (below.reverse ++ splitBy 47 p)) := by
    rw [extract_of hne (plain_below hv hp) hno, pkgDir_clean _ hp]
    have hl : ([] : Str) :: ((splitBy 47 p).reverse ++ (below ++ w :: above)).reverse = ([] :: above.reverse) ++ (w :: (below.reverse ++ splitBy 47 p)) := by
      simp
    rw [hl, fromDomain_skip]
    · cases hbr : below.reverse with
      | nil => exact absurd (List.reverse_eq_nil_iff.1 hbr) hb
      | cons y t =>
        cases ht : t ++ splitBy 47 p with
        | nil => exact absurd (List.append_eq_nil_iff.1 ht).2 (splitBy_ne p)
        | cons z t' =>
          rw [List.cons_append, ht, fromDomain_here hw, Option.getD_some]
    · intro x hx
      rcases List.mem_cons.1 hx with rfl | hx
      · simp
      · exact hd x (by simpa using hx)
    · have := List.length_pos_iff.2 hb
      simp only [List.length_cons, List.length_append, List.length_reverse]
      omega
  refine ⟨he, ?_⟩
  rw [he]
  intro hx
  have h2 := congrArg (splitBy 47) hx
  rw [splitBy_join (by simp)] at h2
  · have := congrArg List.length h2
    simp at this
    omega
  · intro x hx
    rcases List.mem_cons.1 hx with rfl | hx
    · exact (hv x (by simp)).2.2.2
    · rcases List.mem_append.1 hx with hx | hx
      · exact (hv x (by simp [List.mem_reverse.1 hx])).2.2.2
      · exact no_slash hx

/-- C140: code for a vendored package without a claw.mod is written to the place of the path that was guessed; if there is no such directory
clawc fails. -/
theorem C140_guessed {root : Module} (hm : RootModule b u dir root) (hs : Shuffles b) (hc : CleanPaths b root dir name) {p : Str} {ds : List Str}
    (hp : Needed b root dir name p) (hg : Vendor.got b.world false root [] p = .ok (ds, true)) (hl : isLocalDependency b.repo p = false)
    (ht : Str.contains p (pathOf (name :: dir)) = false) (hno : get b.fs (pkgDir b.vendorDir p) (lit "claw.mod") = none)
    (h : b.compile u depth dir name = .ok ws) :
    (b.dirOf (extractModulePath (pkgDir b.vendorDir p)), extractModulePath (pkgDir b.vendorDir p)) ∈ ws ∧
    ∀ n e, n :: e = b.dirOf (extractModulePath (pkgDir b.vendorDir p)) → get b.fs e n = some .dir ∨ n :: e <:+ b.vendorDir ∨
      ∃ q ds', Needed b root dir name q ∧ Vendor.got b.world false root [] q = .ok (ds', true) ∧ n :: e <:+ pkgDir b.vendorDir q := by
  obtain ⟨g, fs, m, deps, got, R⟩ := run hm h
  obtain ⟨z, hz, hzw⟩ := R.one hs p hp
  rw [Box.compileOne, if_neg (by simp [ht]), if_neg (by simp [hl])] at hz
  simp only [Box.compileVendored, Out.bind_eq_ok] at hz
  obtain ⟨ds2, -, hz⟩ := hz
  obtain ⟨m', got', h1, h2, rfl, h4⟩ := readAndWrite_ok hz
  have hpc := hc p ds hp hg
  have hmod : get fs (pkgDir b.vendorDir p) (lit "claw.mod") = none := by
    rw [(R.created hc).2.1, hno]
    · intro hx
      have := hx.length_le
      rw [pkgDir_clean _ hpc] at this
      simp at this
      omega
    · intro q hq hsq hx
      obtain ⟨k1, k2, ds', k3⟩ := R.pkg hq
      rw [hsq] at k3
      have hqc := hc q.path ds' k1 k3
      rcases hx with hx | ⟨-, hx⟩ | hx
      · exact clawName_ne_mod _ (Prod.ext_iff.1 hx).2.symm
      · exact hx k2
      · exact not_below_mod hpc hqc hx
  rw [modulePath, hmod] at h1
  cases h1
  have hin := readTop_mem h2
  refine ⟨hzw _ (List.mem_map.2 ⟨_, hin, rfl⟩), fun n e hne => ?_⟩
  have hdir := h4 _ hin
  rw [← hne] at hdir
  simp only [isDir, decide_eq_true_eq] at hdir
  by_cases hv : n :: e <:+ b.vendorDir
  · exact .inr (.inl hv)
  · by_cases hx : ∀ q ∈ b.pkgs root g, q.shouldVendor = true → ¬ Touches b.vendorDir q e n
    · rw [(R.created hc).2.1 e n hv hx] at hdir
      exact .inl hdir
    · refine .inr (.inr ?_)
      simp only [Classical.not_forall, Classical.not_not] at hx
      obtain ⟨q, hq, hsq, hx⟩ := hx
      obtain ⟨k1, k2, ds', k3⟩ := R.pkg hq
      rw [hsq] at k3
      rcases hx with hx | ⟨-, hx⟩ | hx
      · have := ((R.created hc).1 q hq hsq).schema
        rw [show pkgDir b.vendorDir q.path = e from (Prod.ext_iff.1 hx).1.symm, show clawName q.path = n from (Prod.ext_iff.1 hx).2.symm, hdir] at this
        cases this
      · exact absurd k2 hx
      · exact ⟨q.path, ds', k1, k3, hx⟩

/-! ### Cases -/

namespace Case

/-- What is needed is among `l` if `l` has the schema and all that its members import. -/
theorem needed_mem {b : Box} {root : Module} {dir : Dir} {name : Str} (l : List Str) (h0 : pathOf (name :: dir) ∈ l)
    (hl : ∀ p ∈ l, ∀ q ∈ importsOf b.world false root [] p, q ∈ l) {p : Str} (h : Needed b root dir name p) : p ∈ l := by
  induction h with
  | refl => exact h0
  | step _ hc ih => exact hl _ ih _ hc

/-- A directory and those above. -/
def mkdirs : Dir → FS
  | [] => []
  | n :: d => ((d, n), .dir) :: mkdirs d

def app : Dir := [lit "app", lit "src"]
def car : Str := lit "github.com/me/app/car"
def maker : Str := lit "github.com/me/app/maker"
def wheel : Str := lit "github.com/you/wheel"

/-- The schema car of the repository at `r` imports maker, of the same repository, and wheel, of another; maker imports what `also` has. -/
def box (r : Dir) (wheel : Str) (also : List Str) (carMod : Str) (more : FS) : Box where
  fs := more ++ ([((lit "car" :: r, lit "car.claw"), .file (lit "1")), ((lit "car" :: r, lit "claw.mod"), .file carMod),
    ((lit "maker" :: r, lit "maker.claw"), .file (lit "2")), ((r, lit "maker"), .dir), ((r, lit "car"), .dir)] ++ mkdirs r)
  cwd := lit "car" :: r
  git := some (lit "github.com/me/app", r)
  workDir := r
  repo := lit "github.com/me/app"
  vendorName := lit "claw_vendor"
  schema t := if t = lit "1" then some [maker, wheel] else if t = lit "2" then some also else if t = lit "3" then some [] else none
  remote p _ := if p = wheel then some (lit "3") else none
  goGet _ := false
  shuffle g := g.map (·.1)

def carMod : Str := lit "module github.com/me/app/car\n"
def makerMod (r : Dir) : FS := [((lit "maker" :: r, lit "claw.mod"), .file (lit "module github.com/me/app/maker\n"))]

/-- One that is compiled. -/
def good : Box := box app wheel [] carMod (makerMod app)

def carRoot : Module := { path := car, required := [], replace := [], acls := [] }
def carTop : Str := pathOf (lit "car.claw" :: lit "car" :: app)

def compiled (b : Box) : Out (List (Dir × Str)) := b.compile Mod.ascii 10 (lit "car" :: app) (lit "car.claw")

theorem good_ok : compiled good = .ok [([lit "wheel", lit "you", lit "github.com", lit "claw_vendor", lit "app", lit "src"], wheel),
    ([lit "maker", lit "app", lit "src"], maker), ([lit "maker", lit "app", lit "src"], maker), 
    ([lit "wheel", lit "you", lit "github.com", lit "claw_vendor", lit "app", lit "src"], wheel), ([lit "car", lit "app", lit "src"], car)] := by
  decide +kernel

theorem good_module : RootModule good Mod.ascii (lit "car" :: app) carRoot := ⟨carMod, by decide +kernel, by decide +kernel⟩

theorem good_shuffles : Shuffles good := fun _ => List.Perm.refl _

theorem good_needed {p : Str} (h : Needed good carRoot (lit "car" :: app) (lit "car.claw") p) : p ∈ [carTop, maker, wheel] :=
  needed_mem [carTop, maker, wheel] (by decide +kernel) (by decide +kernel) h

theorem clean_maker : Clean (lit "maker") := ⟨by unfold Names; decide +kernel, by decide +kernel, by decide +kernel⟩
theorem clean_wheel : Clean wheel := ⟨by unfold Names; decide +kernel, by decide +kernel, by decide +kernel⟩

theorem good_usual : Usual good carRoot (lit "car" :: app) (lit "car.claw") (lit "github.com/me/app") app where
  git := rfl
  origin := by decide
  once := by unfold Once; decide +kernel
  plain := by unfold Plain; decide +kernel
  place := by unfold Plain; decide +kernel
  schema := by decide +kernel
  vendor := by decide +kernel
  beside := by decide +kernel
  replace := rfl
  paths p hp hne := by
    have := good_needed hp
    simp only [List.mem_cons, List.not_mem_nil, or_false] at this
    rcases this with rfl | rfl | rfl
    · exact absurd rfl hne
    · refine ⟨by decide +kernel, .inl ⟨lit "maker", by decide +kernel, clean_maker, by decide +kernel, by decide +kernel⟩⟩
    · refine ⟨by decide +kernel, .inr ⟨by decide +kernel, clean_wheel⟩⟩

example : (good.dirOf car, car) ∈ [([lit "wheel", lit "you", lit "github.com", lit "claw_vendor", lit "app", lit "src"], wheel),
    ([lit "maker", lit "app", lit "src"], maker), ([lit "maker", lit "app", lit "src"], maker),
    ([lit "wheel", lit "you", lit "github.com", lit "claw_vendor", lit "app", lit "src"], wheel), ([lit "car", lit "app", lit "src"], car)] :=
  (C140_written_partial good_module good_usual good_ok).1

/-! #### Those that fail -/

/-- claw.mod of car has wheel replaced by a directory of the repository. -/
def replaced : Box := box app wheel [] (lit "module github.com/me/app/car\nreplace (\n  github.com/you/wheel => ../wheel\n)\n")
  (((lit "wheel" :: app, lit "wheel.claw"), .file (lit "3")) :: ((app, lit "wheel"), .dir) :: makerMod app)

def replacedRoot : Module := { carRoot with replace := [⟨wheel, lit "../wheel"⟩] }

/-- Is it vendored? -/
def vendored (b : Box) (root : Module) (p : Str) : Bool :=
  match Vendor.got b.world false root [] p with
  | .ok x => x.2
  | _ => false

theorem clean_of {b : Box} {root : Module} {dir : Dir} {name : Str} (l : List Str) (h0 : pathOf (name :: dir) ∈ l)
    (hl : ∀ p ∈ l, ∀ q ∈ importsOf b.world false root [] p, q ∈ l) {w : Str} (hw : Clean w) (hv : ∀ p ∈ l, vendored b root p = true → p = w) :
    CleanPaths b root dir name := by
  intro p ds hp hg
  have : vendored b root p = true := by rw [vendored, hg]
  rw [hv p (needed_mem l h0 hl hp) this]
  exact hw

theorem none_of {fs : FS} {d : Dir} (h : ∀ e ∈ fs, e.1.1 ≠ d) (n : Str) : get fs d n = none := by
  rw [VendorDir.get, List.find?_eq_none.2]
  · rfl
  · intro e he
    have := h e he
    simp only [decide_eq_true_eq]
    intro hx
    exact this (congrArg Prod.fst hx)

theorem C140_replaced_fails (depth : Nat) (ws : List (Dir × Str)) :
    replaced.compile Mod.ascii depth (lit "car" :: app) (lit "car.claw") ≠ .ok ws :=
  C140_replaced (root := replacedRoot) (p := wheel) ⟨_, rfl, by decide +kernel⟩ (fun _ => List.Perm.refl _)
    (clean_of [carTop, maker, wheel] (by decide +kernel) (by decide +kernel) clean_wheel (by decide +kernel))
    (.step .refl (by decide +kernel)) clean_wheel (by decide +kernel) (by decide +kernel) (by decide +kernel)
    (fun n _ => none_of (by decide +kernel) n)

/-- claw.work names another repository than git does. -/
def beyond : Box := { good with repo := lit "github.com/me/app/car" }

theorem C140_beyond_work_fails (depth : Nat) (ws : List (Dir × Str)) :
    beyond.compile Mod.ascii depth (lit "car" :: app) (lit "car.claw") ≠ .ok ws :=
  C140_beyond_work (root := carRoot) (p := maker) ⟨_, rfl, by decide +kernel⟩ (fun _ => List.Perm.refl _)
    (clean_of [carTop, maker, wheel] (by decide +kernel) (by decide +kernel) clean_wheel (by decide +kernel)) (o := lit "github.com/me/app") rfl
    (.step .refl (by decide +kernel)) ⟨by unfold Names; decide +kernel, by decide +kernel, by decide +kernel⟩ (by decide +kernel)
    (by decide +kernel) (by decide +kernel) (fun n _ => none_of (by decide +kernel) n)

/-- maker, of the repository, imports wheel, of another. -/
def imports : Box := box app wheel [wheel] carMod (makerMod app)

theorem C140_go_get_fails (depth : Nat) (ws : List (Dir × Str)) :
    imports.compile Mod.ascii depth (lit "car" :: app) (lit "car.claw") ≠ .ok ws := by
  intro h
  have := C140_go_get (root := carRoot) (p := maker) (rel := lit "maker") ⟨_, rfl, by decide +kernel⟩ (fun _ => List.Perm.refl _)
    (clean_of [carTop, maker, wheel] (by decide +kernel) (by decide +kernel) clean_wheel (by decide +kernel)) (by unfold Once; decide +kernel)
    (by decide +kernel) (o := lit "github.com/me/app") rfl (.step .refl (by decide +kernel)) (by decide +kernel) (by decide +kernel)
    (by decide +kernel) (ds := [wheel]) (by decide +kernel) (e := wheel) (by simp) (by decide +kernel) h
  cases this

/-- maker has no claw.mod. -/
def noModule : Box := box app wheel [] carMod []

theorem C140_no_module_fails (depth : Nat) (ws : List (Dir × Str)) :
    noModule.compile Mod.ascii depth (lit "car" :: app) (lit "car.claw") ≠ .ok ws := by
  intro h
  have := C140_no_module (root := carRoot) (p := maker) (rel := lit "maker") ⟨_, rfl, by decide +kernel⟩ (fun _ => List.Perm.refl _)
    (clean_of [carTop, maker, wheel] (by decide +kernel) (by decide +kernel) clean_wheel (by decide +kernel))
    (by decide +kernel) (o := lit "github.com/me/app") rfl (.step .refl (by decide +kernel)) (by decide +kernel) (by decide +kernel)
    (by decide +kernel) (by decide +kernel) (by decide +kernel) h
  cases this

/-- wheel has a path of two elements. -/
def short : Box := box app (lit "you.org/wheel") [] carMod (makerMod app)

theorem clean_short : Clean (lit "you.org/wheel") := ⟨by unfold Names; decide +kernel, by decide +kernel, by decide +kernel⟩

theorem C140_short_fails (depth : Nat) (ws : List (Dir × Str)) :
    short.compile Mod.ascii depth (lit "car" :: app) (lit "car.claw") ≠ .ok ws := by
  intro h
  have := (C140_guessed (root := carRoot) (p := lit "you.org/wheel") (ds := []) ⟨_, rfl, by decide +kernel⟩ (fun _ => List.Perm.refl _)
    (clean_of [carTop, maker, lit "you.org/wheel"] (by decide +kernel) (by decide +kernel) clean_short (by decide +kernel))
    (.step .refl (by decide +kernel)) (by decide +kernel) (by decide +kernel) (by decide +kernel) (by decide +kernel) h).2
    (lit "wheel") (lit "claw_vendor" :: app) (by decide +kernel)
  rcases this with h | h | ⟨q, ds', hq, hg, h⟩
  · revert h; decide +kernel
  · revert h; decide +kernel
  · have hm : q ∈ [carTop, maker, lit "you.org/wheel"] := needed_mem _ (by decide +kernel) (by decide +kernel) hq
    have hv : vendored short carRoot q = true := by rw [vendored, hg]
    have : ∀ q ∈ [carTop, maker, lit "you.org/wheel"], vendored short carRoot q = true →
        ¬ (lit "wheel" :: lit "claw_vendor" :: app) <:+ pkgDir short.vendorDir q := by decide +kernel
    exact this q hm hv h

/-- The repository is below a directory with a dot in its name. -/
def dottedApp : Dir := [lit "app", lit "j.doe", lit "home"]
def dotted : Box := box dottedApp wheel [] carMod (makerMod dottedApp)

theorem C140_dotted_fails (depth : Nat) (ws : List (Dir × Str)) :
    dotted.compile Mod.ascii depth (lit "car" :: dottedApp) (lit "car.claw") ≠ .ok ws := by
  intro h
  have := (C140_guessed (root := carRoot) (p := wheel) (ds := []) ⟨_, rfl, by decide +kernel⟩ (fun _ => List.Perm.refl _)
    (clean_of [pathOf (lit "car.claw" :: lit "car" :: dottedApp), maker, wheel] (by decide +kernel) (by decide +kernel) clean_wheel
      (by decide +kernel))
    (.step .refl (by decide +kernel)) (by decide +kernel) (by decide +kernel) (by decide +kernel) (by decide +kernel) h).2
    (lit "wheel") (splitBy 47 (lit "j.doe/app/claw_vendor/github.com/you") |>.reverse |> (· ++ lit "claw_vendor" :: dottedApp)) (by decide +kernel)
  rcases this with h | h | ⟨q, ds', hq, hg, h⟩
  · revert h; decide +kernel
  · revert h; decide +kernel
  · have hm : q ∈ [pathOf (lit "car.claw" :: lit "car" :: dottedApp), maker, wheel] := needed_mem _ (by decide +kernel) (by decide +kernel) hq
    have hv : vendored dotted carRoot q = true := by rw [vendored, hg]
    have : ∀ q ∈ [pathOf (lit "car.claw" :: lit "car" :: dottedApp), maker, wheel], vendored dotted carRoot q = true →
        ¬ (lit "wheel" :: (splitBy 47 (lit "j.doe/app/claw_vendor/github.com/you") |>.reverse |> (· ++ lit "claw_vendor" :: dottedApp))) <:+
          pkgDir dotted.vendorDir q := by decide +kernel
    exact this q hm hv h

example : extractModulePath (pkgDir good.vendorDir wheel) = wheel :=
  C140_guess_right (by unfold Plain; decide +kernel) (by unfold Dotless; decide +kernel) clean_wheel (x := lit "github.com") (y := lit "you")
    (z := lit "wheel") (rest := []) (by decide +kernel) (by decide +kernel) (by decide +kernel)

example : extractModulePath (pkgDir good.vendorDir (lit "you.org/wheel")) = lit "wheel" :=
  (C140_guess_short (by unfold Plain; decide +kernel) (by unfold Dotless; decide +kernel) clean_short (x := lit "you.org") (by decide +kernel)
    (by decide +kernel)).1

example : extractModulePath (pkgDir dotted.vendorDir wheel) = lit "j.doe/app/claw_vendor/github.com/you/wheel" :=
  (C140_guess_dotted (below := [lit "claw_vendor", lit "app"]) (above := [lit "home"]) (w := lit "j.doe") (by decide +kernel)
    (by unfold Plain; decide +kernel) (by unfold Dotless; decide +kernel) clean_wheel (by decide +kernel) (by decide +kernel)).1.trans
    (by decide +kernel)

/-- Outside of git, with a directory for car in the vendor directory, and without maker. -/
def noGit : Box := { box app wheel [] carMod (mkdirs [lit "car", lit "app", lit "me", lit "github.com", lit "claw_vendor", lit "app", lit "src"])
    with git := none, schema := fun t => if t = lit "1" then some [wheel] else some [] }

example : compiled noGit = .ok [(pkgDir noGit.vendorDir wheel, wheel), (pkgDir noGit.vendorDir wheel, wheel), (pkgDir noGit.vendorDir car, car)] := by
  decide +kernel

theorem C140_outside_git_fails : compiled { good with git := none } = .err := by decide +kernel

end Case

end Claw.Compile
