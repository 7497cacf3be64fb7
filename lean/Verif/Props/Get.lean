import Verif.Lemmas.Get
import Verif.Props.CompileOk

/-!
# `clawc get` fetches and compiles a package at a version (C141)
-/

namespace Claw.Compile

open Claw.Idl (Out Uni)
open Claw.Mod (Module splitBy)
open Claw.VendorDir
open Claw.Graph
open Claw.Vendor (World Graph hasSuffix inRepo absRel readRel applyReplace resolveVersion readVendored readTop importsOf edgesOf isLocalPath
  parseSpec)

variable {b : Box} {u : Uni} {depth : Nat} {pkg v : Str} {fs : FS}

/-- What is to be had of `q` when version `v` of `pkg` is asked for: of other packages the latest version. -/
def asked (b : Box) (root : Module) (pkg v q : Str) : Option Bytes :=
  b.content (applyReplace q root []) (if q = pkg then v else [])

/-- What it imports. -/
def asks (b : Box) (root : Module) (pkg v q : Str) : List Str := ((asked b root pkg v q).bind b.schema).getD []

/-- Version `v` of `pkg` needs `q`, directly or through others. -/
abbrev Wanted (b : Box) (root : Module) (pkg v q : Str) : Prop := Reach (asks b root pkg v) pkg q

theorem getRoot_required (b : Box) (u : Uni) : (b.getRoot u).required = [] := by
  unfold Box.getRoot
  split
  · rename_i m h
    obtain ⟨t, -, h⟩ := Option.map_eq_some_iff.1 h
    exact (Mod.C86_no_versions_no_lists u t m h).1
  · rfl

theorem got_asked {o : Str} {r : Dir} (hgit : b.git = some (o, r)) {root : Module} (hreq : root.required = []) (q : Str) :
    Vendor.got b.world true (Vendor.pinned root pkg v) [] q =
      match (asked b root pkg v q).bind b.schema with | some deps => .ok (deps, true) | none => .err := by
  rw [Vendor.got, fetch_content hgit, Vendor.resolve_pinned, show applyReplace q (Vendor.pinned root pkg v) [] = applyReplace q root [] from rfl]
  have : resolveVersion q root = [] := by simp [resolveVersion, hreq]
  rw [this]
  rfl

theorem imports_asks {o : Str} {r : Dir} (hgit : b.git = some (o, r)) {root : Module} (hreq : root.required = []) :
    importsOf b.world true (Vendor.pinned root pkg v) [] = asks b root pkg v := by
  funext q
  rw [importsOf, got_asked hgit hreq, asks]
  cases (asked b root pkg v q).bind b.schema <;> rfl

/-- All there is to know of the vendoring of a package. -/
structure Single (b : Box) (u : Uni) (pkg v : Str) (fs : FS) (g : Graph) : Prop where
  nodup : (g.map (·.1)).Nodup
  wanted : ∀ q, q ∈ g.map (·.1) ↔ Wanted b (b.getRoot u) pkg v q
  node : ∀ x ∈ g, (asked b (b.getRoot u) pkg v x.1).bind b.schema = some x.2.deps
  mod : ∀ x ∈ g, x.2.mod = Vendor.moduleFile b.world u (applyReplace x.1 (b.getRoot u) [])
  acyclic : ∀ q, Wanted b (b.getRoot u) pkg v q → ¬ Cyclic (asks b (b.getRoot u) pkg v) q
  acls : Vendor.validateACLs (b.getRoot u) g = true
  made : vendorAll b.vendorDir b.fs (b.getPkgs (b.getRoot u) pkg v g) = .ok fs

theorem single {o : Str} {r : Dir} (hgit : b.git = some (o, r)) (h : b.vendorSingle u depth pkg v = .ok fs) : ∃ g, Single b u pkg v fs g := by
  simp only [Box.vendorSingle, Out.bind_eq_ok] at h
  obtain ⟨g, h1, _, h2, h3⟩ := h
  have hreq := getRoot_required b u
  rw [Vendor.process_top] at h1
  have hp := Vendor.process_ok depth [] pkg [] g Vendor.good_empty h1
  have hi := imports_asks (pkg := pkg) (v := v) hgit hreq
  have hm : ∀ q, q ∈ g.map (·.1) ↔ Wanted b (b.getRoot u) pkg v q := by
    intro q
    rw [Wanted, ← hi]
    constructor
    · intro hq
      rcases hp.reach q hq with h | h
      · simp at h
      · exact h
    · intro hr
      induction hr with
      | refl => exact hp.mem
      | step _ hd ih => exact (hp.good.closed _ ih (by simp)).1 _ hd
  refine ⟨g, hp.good.nodup, hm, fun x hx => ?_, fun x hx => (hp.good.node x hx).2, fun q hq => ?_, guard_ok h2, h3⟩
  · have := (hp.good.node x hx).1
    rw [got_asked hgit hreq] at this
    split at this
    · rename_i deps hd
      rw [hd]
      simp only [Out.ok.injEq, Prod.mk.injEq] at this
      rw [this.1]
    · cases this
  · rw [Wanted, ← hi] at hq
    rw [← hi]
    exact acyclic_of_acc hp.acc q hq

section

variable {g : Graph}

theorem Single.one (s : Single b u pkg v fs g) {q : Str} (hq : Wanted b (b.getRoot u) pkg v q) :
    ∃ t x, (q, x) ∈ g ∧ asked b (b.getRoot u) pkg v q = some t ∧ b.schema t = some (asks b (b.getRoot u) pkg v q) ∧
      (⟨q, t, x.mod.map Mod.moduleText, true⟩ : Pkg) ∈ b.getPkgs (b.getRoot u) pkg v g := by
  obtain ⟨⟨q', x⟩, hx, rfl⟩ := List.mem_map.1 ((s.wanted q).2 hq)
  have hn := s.node _ hx
  obtain ⟨t, h1, h2⟩ := Option.bind_eq_some_iff.1 hn
  refine ⟨t, x, hx, h1, ?_, ?_⟩
  · rw [h2, asks, hn]
    rfl
  · simp only [Box.getPkgs, List.mem_map]
    refine ⟨_, hx, ?_⟩
    have hv : resolveVersion q' (b.getRoot u) = [] := by simp [resolveVersion, getRoot_required]
    simp only [hv]
    rw [show b.content (applyReplace q' (b.getRoot u) []) (if q' = pkg then v else []) = some t from h1]
    rfl

theorem Single.paths (s : Single b u pkg v fs g) : ((b.getPkgs (b.getRoot u) pkg v g).map (·.path)).Nodup := by
  have : (b.getPkgs (b.getRoot u) pkg v g).map (·.path) = g.map (·.1) := by simp [Box.getPkgs]
  rw [this]
  exact s.nodup

theorem Single.cleanPaths (s : Single b u pkg v fs g) (hc : ∀ q, Wanted b (b.getRoot u) pkg v q → Clean q) :
    ∀ p ∈ b.getPkgs (b.getRoot u) pkg v g, Clean p.path := by
  intro p hp
  simp only [Box.getPkgs, List.mem_map] at hp
  obtain ⟨x, hx, rfl⟩ := hp
  exact hc x.1 ((s.wanted _).1 (List.mem_map.2 ⟨x, hx, rfl⟩))

end

/-- C141: what clawc get vendors is the package at the version that was asked for and everything it needs, as it is to be had; no other
package is touched and nothing outside of the vendor directory. -/
theorem C141_vendored {o : Str} {r : Dir} (hgit : b.git = some (o, r)) (hc : ∀ q, Wanted b (b.getRoot u) pkg v q → Clean q)
    (h : b.vendorSingle u depth pkg v = .ok fs) :
    (∀ q, Wanted b (b.getRoot u) pkg v q → ∃ t, asked b (b.getRoot u) pkg v q = some t ∧ (b.schema t).isSome = true ∧
      get fs (pkgDir b.vendorDir q) (clawName q) = some (.file t)) ∧
    (∀ q n, Clean q → ¬ Wanted b (b.getRoot u) pkg v q → hasSuffix (lit ".claw") n = true →
      get fs (pkgDir b.vendorDir q) n = get b.fs (pkgDir b.vendorDir q) n) ∧
    ∀ e n, ¬ b.vendorDir <:+ e → ¬ n :: e <:+ b.vendorDir → get fs e n = get b.fs e n := by
  obtain ⟨g, s⟩ := single hgit h
  have hcp := s.cleanPaths hc
  obtain ⟨h1, h2, -⟩ := all_ok hcp s.paths s.made
  refine ⟨fun q hq => ?_, fun q n hq hw hn => ?_, fun e n he hv => h2 e n fun p hp => not_touched (hcp p hp) he hv⟩
  · obtain ⟨t, x, hx, ht, hs, hp⟩ := s.one hq
    exact ⟨t, ht, by rw [hs]; rfl, (h1 _ hp).schema⟩
  · refine h2 _ n fun p hp ht => ?_
    have hpc := hcp p hp
    simp only [Box.getPkgs, List.mem_map] at hp
    obtain ⟨x, hx, rfl⟩ := hp
    have hne : q ≠ x.1 := by
      rintro rfl
      exact hw ((s.wanted _).1 (List.mem_map.2 ⟨x, hx, rfl⟩))
    rcases ht with ht | ⟨ht, -⟩ | ht
    · exact hne (pkgDir_inj hq hpc (Prod.ext_iff.1 ht).1)
    · exact hne (pkgDir_inj hq hpc (Prod.ext_iff.1 ht).1)
    · exact not_below_claw hq hpc hn ht

/-- C141: what claw.mod of the directory replaces by a directory is vendored from there, and with the claw.mod it has there, which has to let the
module in. -/
theorem C141_replaced {root : Module} (hm : RootModule b u b.cwd root) {o : Str} {r : Dir} (hgit : b.git = some (o, r))
    (hc : ∀ q, Wanted b root pkg v q → Clean q) (h : b.vendorSingle u depth pkg v = .ok fs) {q : Str} (hq : Wanted b root pkg v q)
    {pre post : List Mod.Replace} {d : Str} (hr : root.replace = pre ++ ⟨q, d⟩ :: post) (hpre : ∀ x ∈ pre, x.fromPath ≠ q)
    (hd : isLocalPath d = true) :
    (∃ t, b.text d = some t ∧ get fs (pkgDir b.vendorDir q) (clawName q) = some (.file t)) ∧
    ∀ t m, fileAt b.fs (b.locate d) (lit "claw.mod") = some t → Mod.parseModule u t = .ok m →
      get fs (pkgDir b.vendorDir q) (lit "claw.mod") = some (.file (Mod.moduleText m)) ∧ Vendor.checkACL root.path m = true := by
  have hroot : b.getRoot u = root := by
    obtain ⟨text, t1, t2⟩ := hm
    unfold Box.getRoot
    rw [t1, Option.map_some, t2]
  have ha : applyReplace q root [] = d := by
    have hf : root.replace.find? (fun r => r.fromPath == q) = some ⟨q, d⟩ := by
      rw [hr, List.find?_append, List.find?_eq_none.2 (by simpa using hpre)]
      simp
    simp [applyReplace, hf]
  obtain ⟨g, s⟩ := single hgit h
  rw [← hroot] at hc hq ha
  have hcp := s.cleanPaths hc
  obtain ⟨t, x, hx, ht, -, hp⟩ := s.one hq
  have hh := (all_ok hcp s.paths s.made).1 _ hp
  refine ⟨⟨t, ?_, hh.schema⟩, fun t m h1 h2 => ?_⟩
  · rw [asked, ha, Box.content, if_pos hd] at ht
    exact ht
  · have hmod := s.mod _ hx
    simp only [ha, Vendor.moduleFile, hd, if_true] at hmod
    rw [show b.world.mod d = some t from h1] at hmod
    simp only [h2] at hmod
    constructor
    · exact hh.mod _ (by simp [hmod])
    · have := s.acls
      rw [Vendor.validateACLs, List.all_eq_true] at this
      have := this _ hx
      rw [hmod, hroot] at this
      exact this

/-- C141 is violated: of a package that claw.mod replaces by a directory with a claw.mod that is read, nothing can be got. Without
`acls = public` there nobody may import the package, and with it the claw.mod that is vendored is refused. -/
theorem C141_replaced_module {root : Module} (hm : RootModule b u b.cwd root) {o : Str} {r : Dir} (hgit : b.git = some (o, r))
    (latest : Str → Out Str) {s : Str} {v' : Str} (hs : parseSpec s = some (pkg, v'))
    (hc : ∀ v q, Wanted b root pkg v q → Clean q)
    {pre post : List Mod.Replace} {d : Str} (hr : root.replace = pre ++ ⟨pkg, d⟩ :: post) (hpre : ∀ x ∈ pre, x.fromPath ≠ pkg)
    (hd : isLocalPath d = true) {t : Bytes} {m : Module} (ht : fileAt b.fs (b.locate d) (lit "claw.mod") = some t)
    (hp : Mod.parseModule u t = .ok m) (hw : Mod.Proper m) (x : FS × List (Dir × Str)) :
    b.get latest u depth s ≠ .ok x := by
  intro h
  simp only [Box.get, hs, Out.ofOption, Out.ok_bind, Out.bind_eq_ok] at h
  obtain ⟨v, -, fs, h1, ws, h2, -⟩ := h
  obtain ⟨e1, e2⟩ := (C141_replaced hm hgit (hc v) h1 .refl hr hpre hd).2 t m ht hp
  obtain ⟨f1, f2⟩ := Mod.C86_no_versions_no_lists u t m hp
  have hne : m.acls ≠ [] := by
    intro e
    simp [Vendor.checkACL, e] at e2
  have hstar : m.acls = [lit "*"] := f2.resolve_left hne
  have hbad := Mod.C89_importable_refused u hw f1 hne (by
    intro a ha
    rw [hstar, List.mem_singleton] at ha
    rw [ha]
    exact Mod.word_lit (by decide) (by decide))
  simp only [Box.compileVendored, Box.readAndWrite, modulePath, e1, hbad, Out.bind_eq_ok] at h2
  obtain ⟨_, _, _, ⟨_, h, _⟩, _⟩ := h2
  cases h

/-- C141: without a version, or with `latest`, it is the version that is the latest. -/
theorem C141_latest (latest : Str → Out Str) {s s' : Str} (h : parseSpec s = some (pkg, []) ∨ parseSpec s = some (pkg, lit "latest"))
    (hl : latest pkg = .ok v) (h' : parseSpec s' = some (pkg, v)) (hv : v ≠ [] ∧ v ≠ lit "latest") :
    b.get latest u depth s = b.get latest u depth s' := by
  have h1 : toGet latest pkg v = .ok v := by rw [toGet, if_neg (by simp [hv])]
  rcases h with h | h
  · have h2 : toGet latest pkg [] = .ok v := by rw [toGet, if_pos (.inr rfl), hl]
    simp only [Box.get, h, h', Out.ofOption, Out.ok_bind, h1, h2]
  · have h2 : toGet latest pkg (lit "latest") = .ok v := by rw [toGet, if_pos (.inl rfl), hl]
    simp only [Box.get, h, h', Out.ofOption, Out.ok_bind, h1, h2]

/-- C141: what is compiled is the package in the vendor directory. -/
theorem get_ok {latest : Str → Out Str} {s : Str} {ws : List (Dir × Str)} (h : b.get latest u depth s = .ok (fs, ws)) :
    ∃ pkg v, b.vendorSingle u depth pkg v = .ok fs ∧ b.compileVendored u depth fs pkg = .ok ws ∧
      ((parseSpec s = some (pkg, v) ∧ v ≠ [] ∧ v ≠ lit "latest") ∨
        ((parseSpec s = some (pkg, []) ∨ parseSpec s = some (pkg, lit "latest")) ∧ latest pkg = .ok v)) := by
  simp only [Box.get, Out.bind_eq_ok] at h
  obtain ⟨⟨pkg, w⟩, h1, v, h2, fs', h3, ws', h4, h5⟩ := h
  cases h5
  refine ⟨pkg, v, h3, h4, ?_⟩
  have h1 := ofOption_ok h1
  simp only [toGet] at h2
  by_cases hw : w = lit "latest" ∨ w = []
  · rw [if_pos hw] at h2
    rcases hw with rfl | rfl
    · exact .inr ⟨.inr h1, h2⟩
    · exact .inr ⟨.inl h1, h2⟩
  · rw [if_neg hw] at h2
    cases h2
    simp only [not_or] at hw
    exact .inl ⟨h1, hw.2, hw.1⟩

/-! ### What is compiled -/

/-- The package and what it needs are plain packages of the repository or of others. -/
structure Ordinary (b : Box) (u : Uni) (pkg v o : Str) (r : Dir) : Prop where
  git : b.git = some (o, r)
  origin : o ≠ []
  once : Once b.fs
  plain : Plain r
  vendor : PlainVendor b
  replace : (b.getRoot u).replace = []
  paths : ∀ q, Wanted b (b.getRoot u) pkg v q → isLocalPath q = false ∧ Clean q ∧ ((∃ rel, Inside b o r q rel) ∨ Outside o q)

section

variable {o : Str} {r : Dir}

theorem text_below {r : Dir} (hr : Plain r) {rel : Str} (hc : Clean rel) : b.text (pathOf (pkgDir r rel)) = textIn b.fs (pkgDir r rel) := by
  have hs : hasSuffix (lit ".claw") (pathOf (pkgDir r rel)) = false := by
    have hd := pkgDir_clean r hc
    cases hl : (splitBy 47 rel).reverse with
    | nil => exact absurd (List.reverse_eq_nil_iff.1 hl) (splitBy_ne rel)
    | cons x l =>
      rw [hd, hl]
      exact pathOf_suffix (hc.claw x (List.mem_reverse.1 (by rw [hl]; simp)))
  rw [Box.text, if_neg (by simp [hs]), locate_pathOf b (plain_below hr hc)]

theorem asked_inside (hu : Ordinary b u pkg v o r) {q rel : Str} (hq : Wanted b (b.getRoot u) pkg v q) (hi : Inside b o r q rel) :
    asked b (b.getRoot u) pkg v q = textIn b.fs (pkgDir r rel) := by
  obtain ⟨-, -, -, h4, h5, -⟩ := Vendor.C94_inside_partial (rel := rel) hu.origin [] hi.2.2.1
  rw [← hi.1] at h4 h5
  have ha : applyReplace q (b.getRoot u) [] = q := by simp [applyReplace, hu.replace]
  rw [asked, ha, Box.content, if_neg (by simp [(hu.paths q hq).1]), hu.git]
  simp only [h4, if_true, h5]
  exact text_below hu.plain hi.2.1

theorem asked_outside (hu : Ordinary b u pkg v o r) {q : Str} (hq : Wanted b (b.getRoot u) pkg v q) (ho : Outside o q) :
    asked b (b.getRoot u) pkg v q = b.remote q (if q = pkg then v else []) := by
  have hno : inRepo o q = false := ho.1
  have ha : applyReplace q (b.getRoot u) [] = q := by simp [applyReplace, hu.replace]
  rw [asked, ha, Box.content, if_neg (by simp [(hu.paths q hq).1]), hu.git]
  simp only [hno, Bool.false_eq_true, if_false]

/-- C141: of a package of another repository it is the version that was asked for that is vendored, and of what it needs the latest. -/
theorem C141_version (hu : Ordinary b u pkg v o r) (h : b.vendorSingle u depth pkg v = .ok fs) {q : Str}
    (hq : Wanted b (b.getRoot u) pkg v q) (ho : Outside o q) :
    ∃ t, b.remote q (if q = pkg then v else []) = some t ∧ get fs (pkgDir b.vendorDir q) (clawName q) = some (.file t) := by
  obtain ⟨t, h1, -, h2⟩ := (C141_vendored hu.git (fun q hq => (hu.paths q hq).2.1) h).1 q hq
  exact ⟨t, by rw [← asked_outside hu hq ho, h1], h2⟩

/-- C141 is violated: packages of the repository that are needed are copied to the vendor directory, where clawc does not read them. -/
theorem C141_copies (hu : Ordinary b u pkg v o r) (h : b.vendorSingle u depth pkg v = .ok fs) {q rel : Str}
    (hq : Wanted b (b.getRoot u) pkg v q) (hi : Inside b o r q rel) :
    (∃ t, textIn b.fs (pkgDir r rel) = some t ∧ get fs (pkgDir b.vendorDir q) (clawName q) = some (.file t)) ∧
    ∀ fs', b.vendoredFile fs' q = schemaIn b.schema fs' (pkgDir r rel) := by
  obtain ⟨t, h1, -, h2⟩ := (C141_vendored hu.git (fun q hq => (hu.paths q hq).2.1) h).1 q hq
  refine ⟨⟨t, by rw [← asked_inside hu hq hi, h1], h2⟩, fun fs' => ?_⟩
  obtain ⟨-, -, -, h4, -, h6⟩ := Vendor.C94_inside_partial (rel := rel) hu.origin [] hi.2.2.1
  rw [← hi.1] at h4 h6
  simp only [Box.vendoredFile, hu.git, h4, if_true, h6]
  rfl

/-- What is read of the packages is what was asked for, if anything is. -/
theorem read_asked (hu : Ordinary b u pkg v o r) (h : b.vendorSingle u depth pkg v = .ok fs) {q : Str} (hq : Wanted b (b.getRoot u) pkg v q) :
    ((b.vendoredFile fs q).isSome = true → b.vendoredFile fs q = some (asks b (b.getRoot u) pkg v q)) ∧
    ∀ ds, schemaIn b.schema fs (pkgDir b.vendorDir q) = some ds → ds = asks b (b.getRoot u) pkg v q := by
  obtain ⟨g, s⟩ := single hu.git h
  have hcp := s.cleanPaths fun q hq => (hu.paths q hq).2.1
  obtain ⟨h1, -, -⟩ := all_ok hcp s.paths s.made
  have hk := kept hu.once hcp s.paths s.made
  obtain ⟨t, x, hx, ht, hs, hp⟩ := s.one hq
  have hh := h1 _ hp
  have hv : ∀ ds, schemaIn b.schema fs (pkgDir b.vendorDir q) = some ds → ds = asks b (b.getRoot u) pkg v q := by
    intro ds hds
    rw [schemaIn_text] at hds
    obtain ⟨t', h3, h4⟩ := Option.bind_eq_some_iff.1 hds
    rw [text_of_has hk.once hh h3] at h4
    rw [hs] at h4
    cases h4
    rfl
  refine ⟨fun hsome => ?_, hv⟩
  obtain ⟨-, -, ⟨rel, hi⟩ | ho⟩ := hu.paths q hq
  · rw [(C141_copies hu h hq hi).2 fs, schemaIn_text]
    rw [asked_inside hu hq hi] at ht
    rw [hk.text hu.once (fun n hn => (hu.vendor n hn).1) hi.2.2.2 ht]
    exact hs
  · have hno : inRepo o q = false := ho.1
    have hvf : b.vendoredFile fs q = schemaIn b.schema fs (pkgDir b.vendorDir q) := by
      simp only [Box.vendoredFile, hu.git, hno, Bool.false_eq_true, if_false]
    rw [hvf] at hsome ⊢
    obtain ⟨ds, hds⟩ := Option.isSome_iff_exists.1 hsome
    rw [hds, hv ds hds]

/-- C141: when clawc get succeeds, code has been written for everything that the package needs: for packages of the repository beside their
schemas, for others in the vendor directory; and for the package itself, at the path that was guessed from its directory. -/
theorem C141_written_partial (hu : Ordinary b u pkg v o r) (h : b.vendorSingle u depth pkg v = .ok fs) {ws : List (Dir × Str)}
    (hw : b.compileVendored u depth fs pkg = .ok ws) :
    (∀ q, Wanted b (b.getRoot u) pkg v q → q ≠ pkg →
      (∀ rel, Inside b o r q rel → (pkgDir r rel, q) ∈ ws) ∧ (Outside o q → (pkgDir b.vendorDir q, q) ∈ ws)) ∧
    (get b.fs (pkgDir b.vendorDir pkg) (lit "claw.mod") = none →
      (b.dirOf (extractModulePath (pkgDir b.vendorDir pkg)), extractModulePath (pkgDir b.vendorDir pkg)) ∈ ws) ∧
    ∀ x ∈ ws, x.1 = b.dirOf x.2 := by
  simp only [Box.compileVendored, Out.bind_eq_ok] at hw
  obtain ⟨deps, h1, h2⟩ := hw
  have hdeps := (read_asked hu h .refl).2 deps (ofOption_ok h1)
  obtain ⟨m, got, h3, h4, rfl, h6⟩ := readAndWrite_ok h2
  obtain ⟨gg, hgot, k1, k2, k3, -, -⟩ := readTop_closed h4
  have hread : ∀ q, Wanted b (b.getRoot u) pkg v q → q = pkg ∨ q ∈ gg := by
    intro q hq
    induction hq with
    | refl => exact .inl rfl
    | @step a c ha hd ih =>
      rcases ih with ih | ih
      · subst ih
        exact .inr (k1 c (hdeps ▸ hd))
      · refine .inr (k2 a ih c ?_)
        rw [edgesOf, (read_asked hu h ha).1 (k3 a ih)]
        exact hd
  refine ⟨fun q hq hne => ?_, fun hno => ?_, fun x hx => ?_⟩
  · have hin : q ∈ got := by
      rcases hread q hq with h | h
      · exact absurd h hne
      · rw [hgot]; exact List.mem_append.2 (.inl h)
    have hmem : (b.dirOf q, q) ∈ got.map fun p => (b.dirOf p, p) := List.mem_map.2 ⟨q, hin, rfl⟩
    constructor
    · intro rel hi
      obtain ⟨-, -, -, h4, h5, -⟩ := Vendor.C94_inside_partial (rel := rel) hu.origin [] hi.2.2.1
      rw [← hi.1] at h4 h5
      have : b.dirOf q = pkgDir r rel := by simp only [Box.dirOf, hu.git, h4, if_true, h5]; rfl
      rwa [this] at hmem
    · intro ho
      have hno : inRepo o q = false := ho.1
      have : b.dirOf q = pkgDir b.vendorDir q := by simp only [Box.dirOf, hu.git, hno, Bool.false_eq_true, if_false]
      rwa [this] at hmem
  · obtain ⟨g, s⟩ := single hu.git h
    have hcp := s.cleanPaths fun q hq => (hu.paths q hq).2.1
    have hmod : get fs (pkgDir b.vendorDir pkg) (lit "claw.mod") = none := by
      rw [(all_ok hcp s.paths s.made).2.1, hno]
      intro p hp ht
      have hpc := hcp p hp
      simp only [Box.getPkgs, List.mem_map] at hp
      obtain ⟨x, hx, rfl⟩ := hp
      have hxw := (s.wanted _).1 (List.mem_map.2 ⟨x, hx, rfl⟩)
      rcases ht with ht | ⟨-, ht⟩ | ht
      · exact clawName_ne_mod _ (Prod.ext_iff.1 ht).2.symm
      · have ha : applyReplace x.1 (b.getRoot u) [] = x.1 := by simp [applyReplace, hu.replace]
        have hl := (hu.paths _ hxw).1
        have hnone : x.2.mod = none := by rw [s.mod x hx, ha, Vendor.moduleFile, if_neg (by rw [hl]; decide)]
        exact ht (by simp [hnone])
      · exact not_below_mod (hu.paths pkg .refl).2.1 hpc ht
    rw [modulePath, hmod] at h3
    cases h3
    exact List.mem_map.2 ⟨_, readTop_mem h4, rfl⟩
  · obtain ⟨p, -, rfl⟩ := List.mem_map.1 hx
    rfl

/-- C141: and that is the path of the package, if the first of three or more elements of it has a dot in its name and no directory above
has: the code of the package is beside its schema in the vendor directory. -/
theorem C141_compiled_partial (hu : Ordinary b u pkg v o r) (ho : Outside o pkg) (h : b.vendorSingle u depth pkg v = .ok fs)
    {ws : List (Dir × Str)} (hw : b.compileVendored u depth fs pkg = .ok ws) (hno : get b.fs (pkgDir b.vendorDir pkg) (lit "claw.mod") = none)
    (hv : Plain b.vendorDir) (hd : Dotless b.vendorDir) {x y z : Str} {rest : List Str} (hs : splitBy 47 pkg = x :: y :: z :: rest)
    (hx : 46 ∈ x) (hn : Str.contains (pathOf (pkgDir b.vendorDir pkg)) (lit "/vendor/") = false) : (pkgDir b.vendorDir pkg, pkg) ∈ ws := by
  have := (C141_written_partial hu h hw).2.1 hno
  rw [C140_guess_right hv hd ho.2 hs hx hn] at this
  have hi : inRepo o pkg = false := ho.1
  have hd : b.dirOf pkg = pkgDir b.vendorDir pkg := by simp only [Box.dirOf, hu.git, hi, Bool.false_eq_true, if_false]
  rwa [hd] at this

end

/-! ### What is wrong -/

/-- C141 is violated outside of a git repository: clawc get panics. -/
theorem C141_no_git_panics (latest : Str → Out Str) {s : Str} (hg : b.git = none) (hs : parseSpec s = some (pkg, v)) (hv : v ≠ [] ∧ v ≠ lit "latest")
    (hp : isLocalPath (applyReplace pkg (b.getRoot u) []) = false) : b.get latest u (depth + 1) s = .panic := by
  have h1 : toGet latest pkg v = .ok v := by rw [toGet, if_neg (by simp [hv])]
  have h2 : b.vendorSingle u (depth + 1) pkg v = .panic := by
    rw [Box.vendorSingle, Vendor.C90_get_panics (by simp [Box.world, hg]) hp]
    rfl
  simp only [Box.get, hs, Out.ofOption, Out.ok_bind, h1, h2]
  rfl

/-- C141 is violated: the version is not kept. The next time a schema that needs the package is compiled, the latest version is
vendored, whatever was there. -/
theorem C141_forgotten {dir : Dir} {name : Str} {root : Module} {o : Str} {r : Dir} {g : Graph} {fs' : FS} (hm : RootModule { b with fs := fs } u dir root)
    (hgit : b.git = some (o, r)) (hr : root.replace = []) (hc : CleanPaths { b with fs := fs } root dir name) {q : Str}
    (hq : Needed { b with fs := fs } root dir name q) (hl : isLocalPath q = false) (ho : Outside o q)
    (h : Box.vendored { b with fs := fs } u depth dir name = .ok (g, fs')) :
    ∃ t, b.remote q [] = some t ∧ get fs' (pkgDir b.vendorDir q) (clawName q) = some (.file t) := by
  obtain ⟨text, t1, t2⟩ := hm
  simp only [Box.vendored, Out.bind_eq_ok] at h
  obtain ⟨text', h1, root', h2, g', h3, fs'', h4, h5⟩ := h
  cases h5
  have h1 := ofOption_ok h1
  rw [t1] at h1
  cases h1
  rw [t2] at h2
  cases h2
  simp only [Vendor.vendorDeps, Out.bind_eq_ok] at h3
  obtain ⟨_, _, g', h3, _, _, hg⟩ := h3
  cases hg
  have hv0 : ∀ p, resolveVersion p root = [] := fun p => by simp [resolveVersion, (Mod.C86_no_versions_no_lists u text root t2).1]
  obtain ⟨k1, k2, k3, k4⟩ := Vendor.C90_graph (hv0 _) h3
  have P : Pre { b with fs := fs } dir name root g fs' := ⟨k1, k2, k3, k4, h4⟩
  obtain ⟨x, hx, hxe⟩ := List.mem_map.1 ((k2 q).2 hq)
  have hgn := k3 x hx
  rw [hxe] at hgn
  obtain ⟨hsv, t, ht1, ht2⟩ := got_outside (b := { b with fs := fs }) hr hgit ho hl hgn
  have ha : applyReplace q root [] = q := by simp [applyReplace, hr]
  have hpk : (⟨q, t, none, true⟩ : Pkg) ∈ Box.pkgs { b with fs := fs } root g := by
    simp only [Box.pkgs, List.mem_map]
    refine ⟨x, hx, ?_⟩
    rw [hxe, ht1, hsv]
    rfl
  rw [ha, hv0] at ht1
  exact ⟨t, ht1, ((P.created hc).1 _ hpk rfl).schema⟩

/-- C141 is violated: a claw.mod that is refused, as one that requires a version is, is taken for none: its replacements are not made, where
clawc fails. -/
theorem C141_refused_ignored {text : Bytes} (ht : fileAt b.fs b.cwd (lit "claw.mod") = some text) (hbad : ∀ m, Mod.parseModule u text ≠ .ok m) :
    (∀ q, asked b (b.getRoot u) pkg v q = b.content q (if q = pkg then v else [])) ∧
    ∀ name ws, b.compile u depth b.cwd name ≠ .ok ws := by
  constructor
  · intro q
    have : b.getRoot u = ⟨lit "local", [], [], []⟩ := by
      unfold Box.getRoot
      rw [ht]
      split
      · rename_i m h
        exact absurd (Option.some.inj h) (hbad m)
      · rfl
    rw [asked, this]
    rfl
  · intro name ws h
    obtain ⟨text', root, -, -, -, -, -, -, h1, h2, -⟩ := compile_ok h
    rw [ht] at h1
    cases h1
    exact hbad root h2

/-! ### Cases -/

namespace Case

def wheelV1 : Bytes := lit "3"
def wheelNow : Bytes := lit "4"
def tyre : Str := lit "github.com/you/tyre"

/-- Version v1 of wheel imports tyre, of its repository, and maker, of ours; the latest version imports nothing. -/
def shop : Box := { good with
  schema := fun t => if t = lit "1" then some [maker, wheel] else if t = lit "2" then some [] else if t = wheelV1 then some [tyre, maker]
    else if t = wheelNow then some [] else if t = lit "5" then some [] else none
  remote := fun p v => if p = wheel then (if v = lit "v1" then some wheelV1 else if v = [] then some wheelNow else none)
    else if p = tyre ∧ v = [] then some (lit "5") else none }

def noLatest : Str → Out Str := fun _ => .err

theorem shop_root : shop.getRoot Mod.ascii = carRoot := by decide +kernel

def shopFs : FS :=
  match shop.vendorSingle Mod.ascii 10 wheel (lit "v1") with
  | .ok fs => fs
  | _ => []

theorem shop_vendored : shop.vendorSingle Mod.ascii 10 wheel (lit "v1") = .ok shopFs := by decide +kernel

def shopWs : List (Dir × Str) := [(pkgDir shop.vendorDir tyre, tyre), ([lit "maker", lit "app", lit "src"], maker), (pkgDir shop.vendorDir wheel, wheel)]

theorem shop_compiled : shop.compileVendored Mod.ascii 10 shopFs wheel = .ok shopWs := by decide +kernel

theorem shop_get : shop.get noLatest Mod.ascii 10 (lit " github.com/you/wheel@v1") = .ok (shopFs, shopWs) := by
  have h1 : parseSpec (lit " github.com/you/wheel@v1") = some (wheel, lit "v1") := by decide +kernel
  have h2 : toGet noLatest wheel (lit "v1") = .ok (lit "v1") := by decide +kernel
  simp only [Box.get, h1, Out.ofOption, Out.ok_bind, h2, shop_vendored, shop_compiled]

theorem shop_wanted {q : Str} (h : Wanted shop (shop.getRoot Mod.ascii) wheel (lit "v1") q) : q ∈ [wheel, tyre, maker] := by
  rw [shop_root] at h
  have hl : ∀ p ∈ [wheel, tyre, maker], ∀ q ∈ asks shop carRoot wheel (lit "v1") p, q ∈ [wheel, tyre, maker] := by decide +kernel
  induction h with
  | refl => decide +kernel
  | step _ hc ih => exact hl _ ih _ hc

theorem clean_tyre : Clean tyre := ⟨by unfold Names; decide +kernel, by decide +kernel, by decide +kernel⟩
theorem clean_maker_path : Clean maker := ⟨by unfold Names; decide +kernel, by decide +kernel, by decide +kernel⟩

theorem shop_ordinary : Ordinary shop Mod.ascii wheel (lit "v1") (lit "github.com/me/app") app where
  git := rfl
  origin := by decide
  once := good_usual.once
  plain := good_usual.plain
  vendor := good_usual.vendor
  replace := by rw [shop_root]; rfl
  paths q hq := by
    have := shop_wanted hq
    simp only [List.mem_cons, List.not_mem_nil, or_false] at this
    rcases this with rfl | rfl | rfl
    · exact ⟨by decide +kernel, clean_wheel, .inr ⟨by decide +kernel, clean_wheel⟩⟩
    · exact ⟨by decide +kernel, clean_tyre, .inr ⟨by decide +kernel, clean_tyre⟩⟩
    · exact ⟨by decide +kernel, clean_maker_path, .inl ⟨lit "maker", by decide +kernel, clean_maker, by decide +kernel, by decide +kernel⟩⟩

example : ∃ t, shop.remote wheel (lit "v1") = some t ∧ get shopFs (pkgDir shop.vendorDir wheel) (clawName wheel) = some (.file t) :=
  C141_version shop_ordinary shop_vendored .refl ⟨by decide +kernel, clean_wheel⟩

example : (pkgDir shop.vendorDir wheel, wheel) ∈ shopWs :=
  C141_compiled_partial shop_ordinary ⟨by decide +kernel, clean_wheel⟩ shop_vendored shop_compiled (by decide +kernel)
    (by unfold Plain; decide +kernel) (by unfold Dotless; decide +kernel) (x := lit "github.com") (y := lit "you") (z := lit "wheel") (rest := [])
    (by decide +kernel) (by decide +kernel) (by decide +kernel)

theorem wants_maker : Wanted shop (shop.getRoot Mod.ascii) wheel (lit "v1") maker :=
  .step .refl (by rw [shop_root]; decide +kernel)

/-- maker of our own repository is copied to the vendor directory. -/
theorem C141_copies_fails : ∃ t, get shopFs (pkgDir shop.vendorDir maker) (clawName maker) = some (.file t) :=
  let ⟨⟨t, _, h⟩, _⟩ := C141_copies shop_ordinary shop_vendored (rel := lit "maker") wants_maker
    ⟨by decide +kernel, clean_maker, by decide +kernel, by decide +kernel⟩
  ⟨t, h⟩

/-- After `clawc get github.com/you/wheel@v1` version v1 of wheel is in the vendor directory; once car is compiled it is not. -/
theorem C141_forgotten_fails : get shopFs (pkgDir shop.vendorDir wheel) (clawName wheel) = some (.file wheelV1) ∧
    ∃ g fs', Box.vendored { shop with fs := shopFs } Mod.ascii 10 (lit "car" :: app) (lit "car.claw") = .ok (g, fs') ∧
      get fs' (pkgDir shop.vendorDir wheel) (clawName wheel) = some (.file wheelNow) := by
  have h : (match Box.vendored { shop with fs := shopFs } Mod.ascii 10 (lit "car" :: app) (lit "car.claw") with
    | .ok (_, fs') => decide (get fs' (pkgDir shop.vendorDir wheel) (clawName wheel) = some (.file wheelNow))
    | _ => false) = true := by decide +kernel
  refine ⟨by decide +kernel, ?_⟩
  split at h
  · rename_i g fs' h1
    exact ⟨g, fs', h1, of_decide_eq_true h⟩
  · cases h

/-- Wherever clawc get has left the vendor directory. -/
example : ∀ g fs', Box.vendored { shop with fs := shopFs } Mod.ascii 10 (lit "car" :: app) (lit "car.claw") = .ok (g, fs') →
    ∃ t, shop.remote wheel [] = some t ∧ get fs' (pkgDir shop.vendorDir wheel) (clawName wheel) = some (.file t) := by
  intro g fs' h
  exact C141_forgotten (b := shop) (fs := shopFs) (root := carRoot) (dir := lit "car" :: app) (name := lit "car.claw") (u := Mod.ascii)
    ⟨carMod, by decide +kernel, by decide +kernel⟩ rfl rfl
    (clean_of [carTop, maker, wheel] (by decide +kernel) (by decide +kernel) clean_wheel (by decide +kernel))
    (.step .refl (by decide +kernel)) (by decide +kernel) ⟨by decide +kernel, clean_wheel⟩ h

/-- claw.mod replaces wheel by a directory: clawc get vendors what is there. -/
def replacedShop : Box := { replaced with fs := ((lit "wheel" :: app, lit "claw.mod"), .file (lit "module github.com/you/wheel\nacls = public\n")) :: replaced.fs }

def replacedFs : FS :=
  match replacedShop.vendorSingle Mod.ascii 10 wheel (lit "v1") with
  | .ok fs => fs
  | _ => []

example : ∃ t, replacedShop.text (lit "../wheel") = some t ∧ get replacedFs (pkgDir replacedShop.vendorDir wheel) (clawName wheel) = some (.file t) :=
  (C141_replaced (b := replacedShop) (u := Mod.ascii) (depth := 10) (pkg := wheel) (v := lit "v1") (root := replacedRoot) (pre := []) (post := [])
    ⟨_, rfl, by decide +kernel⟩ rfl (fun q hq => by
      have h0 : asks replacedShop replacedRoot wheel (lit "v1") wheel = [] := by decide +kernel
      rcases hq.cases_head with h | ⟨d, hd, -⟩
      · rw [← h]; exact clean_wheel
      · rw [h0] at hd; cases hd) (by decide +kernel) .refl (by decide +kernel) (by simp) (by decide +kernel)).1

example : get replacedFs (pkgDir replacedShop.vendorDir wheel) (lit "claw.mod") = some (.file (lit "module github.com/you/wheel\n\nacls (\n    *\n)\n")) := by
  decide +kernel

example (latest : Str → Out Str) (x : FS × List (Dir × Str)) : replacedShop.get latest Mod.ascii 10 (lit "github.com/you/wheel@v1") ≠ .ok x :=
  C141_replaced_module (b := replacedShop) (pkg := wheel) (v' := lit "v1") (root := replacedRoot) (pre := []) (post := [])
    (d := lit "../wheel") (t := lit "module github.com/you/wheel\nacls = public\n") (m := ⟨wheel, [], [], [lit "*"]⟩)
    ⟨_, rfl, by decide +kernel⟩ rfl latest (by decide +kernel) (fun v q hq => by
      have h0 : asks replacedShop replacedRoot wheel v wheel = [] := by
        have h1 : asked replacedShop replacedRoot wheel v wheel = replacedShop.text (lit "../wheel") := by
          rw [asked, show applyReplace wheel replacedRoot [] = lit "../wheel" by decide +kernel, Box.content, if_pos (by decide +kernel)]
        rw [asks, h1]
        decide +kernel
      rcases hq.cases_head with h | ⟨d, hd, -⟩
      · rw [← h]; exact clean_wheel
      · rw [h0] at hd; cases hd) (by decide +kernel) (by simp) (by decide +kernel) (by decide +kernel) (by decide +kernel)
    ⟨Mod.word_lit (by decide) (by decide), by simp⟩ x

/-- claw.mod replaces wheel and requires a version of something: clawc get fetches wheel all the same. -/
def requiresMod : Bytes :=
  lit "module github.com/me/app/car\nrequire (\n  github.com/x/y v1.0.0\n)\nreplace (\n  github.com/you/wheel => ../wheel\n)\n"

def requires : Box := { shop with
  fs := ((lit "car" :: app, lit "claw.mod"), .file requiresMod) :: shop.fs.filter (fun e => e.1 ≠ (lit "car" :: app, lit "claw.mod")) }

theorem C141_refused_ignored_fails : (∀ m, Mod.parseModule Mod.ascii requiresMod ≠ .ok m) ∧
    ∃ fs, requires.vendorSingle Mod.ascii 10 wheel (lit "v1") = .ok fs ∧ get fs (pkgDir requires.vendorDir wheel) (clawName wheel) = some (.file wheelV1) := by
  have h0 : Mod.parseModule Mod.ascii requiresMod = .err := by decide +kernel
  have h : (match requires.vendorSingle Mod.ascii 10 wheel (lit "v1") with
    | .ok fs' => decide (get fs' (pkgDir requires.vendorDir wheel) (clawName wheel) = some (.file wheelV1))
    | _ => false) = true := by decide +kernel
  refine ⟨(fun m hm => by rw [h0] at hm; cases hm), ?_⟩
  split at h
  · rename_i fs' h1
    exact ⟨fs', h1, of_decide_eq_true h⟩
  · cases h

example : { shop with git := none }.get noLatest Mod.ascii 10 (lit "github.com/you/wheel@v1") = .panic :=
  C141_no_git_panics (pkg := wheel) (v := lit "v1") (depth := 9) noLatest rfl (by decide +kernel) (by decide) (by decide +kernel)

example : shop.get (fun _ => .ok (lit "v1")) Mod.ascii 10 wheel = shop.get (fun _ => .ok (lit "v1")) Mod.ascii 10 (lit "github.com/you/wheel@v1") :=
  C141_latest (pkg := wheel) (v := lit "v1") _ (.inl (by decide +kernel)) rfl (by decide +kernel) (by decide)

end Case

end Claw.Compile
