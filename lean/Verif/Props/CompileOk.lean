import Verif.Props.Compile

/-!
# When `clawc` succeeds (C140)
-/

namespace Claw.Compile

open Claw.Idl (Out Uni)
open Claw.Mod (Module splitBy)
open Claw.VendorDir
open Claw.Graph
open Claw.Vendor (World Graph hasSuffix inRepo absRel readRel localRel isLocalDependency applyReplace resolveVersion read readVendored readTop
  vendorDeps compileOrder splitStr joinStr importsOf edgesOf isLocalPath)

variable {b : Box} {u : Uni} {depth : Nat} {dir : Dir} {name : Str} {root : Module} {o : Str} {r : Dir}

/-- A repository in which everything is as clawc wants it. -/
structure Tidy (b : Box) (u : Uni) (root : Module) (dir : Dir) (name o : Str) (r : Dir) : Prop extends Usual b root dir name o r where
  /-- claw.work is at the root of the git repository and names its origin. -/
  work : b.repo = o
  workDir : b.workDir = r
  /-- The schema is in the directory of its path, and it is the only one there. -/
  own : ∃ rel, Inside b o r root.path rel ∧ dir = pkgDir r rel
  only : findClaw b.fs dir = .ok name
  file : get b.fs (name :: dir) (lit "claw.mod") = none
  top : ((fileAt b.fs dir name).bind b.schema).isSome = true
  /-- Packages of the repository can be read, have a claw.mod with their path, and `go get` gets what they need of other repositories. -/
  inside : ∀ p rel, Needed b root dir name p → p ≠ pathOf (name :: dir) → Inside b o r p rel → modulePath u b.fs (pkgDir r rel) = .ok p ∧
    (∃ ds, schemaIn b.schema b.fs (pkgDir r rel) = some ds) ∧
    ∀ q, Reach (importsOf b.world false root []) p q → inRepo o q = true ∨ b.goGet q = true
  /-- Others can be had, have a dot in the first of three or more elements of the path, and there is room for them in the vendor directory. -/
  outside : ∀ p, Needed b root dir name p → p ≠ pathOf (name :: dir) → Outside o p → ((b.remote p []).bind b.schema).isSome = true ∧
    (∃ x y z rest, splitBy 47 p = x :: y :: z :: rest ∧ 46 ∈ x) ∧ Str.contains (pathOf (pkgDir b.vendorDir p)) (lit "/vendor/") = false ∧
    Fits b.vendorDir b.fs p ∧ get b.fs (pkgDir b.vendorDir p) (lit "claw.mod") = none
  /-- No directory on the way to the vendor directory has a dot in its name. -/
  plainVendor : Plain b.vendorDir
  dotless : Dotless b.vendorDir
  /-- No package imports itself, directly or through others. -/
  acyclic : ∀ p, Needed b root dir name p → ¬ Cyclic (importsOf b.world false root []) p

theorem got_top (hu : Tidy b u root dir name o r) {deps : List Str} (hd : (fileAt b.fs dir name).bind b.schema = some deps) :
    Vendor.got b.world false root [] (pathOf (name :: dir)) = .ok (deps, false) := by
  have ha : applyReplace (pathOf (name :: dir)) root [] = pathOf (name :: dir) := by simp [applyReplace, hu.replace]
  have hl : isLocalPath (pathOf (name :: dir)) = true := by simp [isLocalPath, pathOf, Str.hasPrefix]
  have hsx : hasSuffix (lit ".claw") (pathOf (name :: dir)) = true := by
    obtain ⟨s, hs⟩ := pathOf_cons name dir
    have := hu.schema
    unfold hasSuffix at this ⊢
    rw [List.isSuffixOf_iff_suffix] at this ⊢
    rw [hs]
    exact this.trans ((List.suffix_cons _ _).trans (List.suffix_append _ _))
  rw [Vendor.got, ha, Vendor.fetch, if_pos hl, show b.world.claw = b.claw from rfl, Box.claw, if_pos hsx, locate_pathOf b hu.place]
  simp only [hd]

theorem inside_got (hu : Tidy b u root dir name o r) {p rel : Str} (hl : isLocalPath p = false) (hp : Inside b o r p rel) {ds : List Str}
    (hs : schemaIn b.schema b.fs (pkgDir r rel) = some ds) : Vendor.got b.world false root [] p = .ok (ds, false) := by
  obtain ⟨hpe, hcl, hct, -⟩ := hp
  have ha : applyReplace p root [] = p := by simp [applyReplace, hu.replace]
  obtain ⟨-, -, -, h4, h5, -⟩ := Vendor.C94_inside_partial (rel := rel) hu.origin [] hct
  rw [← hpe] at h4 h5
  have hw : b.world.git = some (inRepo o, fun p => some (pathOf (down r (splitBy 47 (absRel o p))))) := by simp [Box.world, hu.git]
  rw [Vendor.got, ha, Vendor.fetch, if_neg (by simp [hl]), hw]
  simp only [h4, if_true, h5]
  rw [show b.world.claw = b.claw from rfl, show down r (splitBy 47 rel) = pkgDir r rel from rfl, claw_below hu.plain hcl, hs]

theorem outside_got (hu : Tidy b u root dir name o r) (hq : root.required = []) {p : Str} (hl : isLocalPath p = false) (hp : Outside o p)
    {t : Bytes} {ds : List Str} (ht : b.remote p [] = some t) (hs : b.schema t = some ds) :
    Vendor.got b.world false root [] p = .ok (ds, true) := by
  have ha : applyReplace p root [] = p := by simp [applyReplace, hu.replace]
  have hw : b.world.git = some (inRepo o, fun p => some (pathOf (down r (splitBy 47 (absRel o p))))) := by simp [Box.world, hu.git]
  have hi : inRepo o p = false := hp.1
  have hv : resolveVersion p root = [] := by simp [resolveVersion, hq]
  rw [Vendor.got, ha, Vendor.fetch, if_neg (by simp [hl]), hw]
  simp only [hi, Bool.false_eq_true, if_false]
  rw [show b.world.remote p (resolveVersion p root) = (b.remote p (resolveVersion p root)).bind b.schema from rfl, hv, ht]
  simp only [Option.bind_some, hs]

theorem compileAll_of {fs : FS} {top : Str} : ∀ {l : List Str}, (∀ p ∈ l, ∃ x, b.compileOne u depth fs top p = .ok x) →
    ∃ ws, b.compileAll u depth fs top l = .ok ws
  | [], _ => ⟨[], rfl⟩
  | p :: l, h => by
    obtain ⟨x, hx⟩ := h p (by simp)
    obtain ⟨y, hy⟩ := compileAll_of (fun q hq => h q (List.mem_cons_of_mem _ hq))
    exact ⟨x ++ y, by rw [Box.compileAll, hx, Out.ok_bind, hy, Out.ok_bind]⟩

theorem write_of {fs : FS} {dirOf : Str → Dir} {ps : List Str} (h : ∀ p ∈ ps, isDir fs (dirOf p) = true) :
    write fs dirOf ps = .ok (ps.map fun p => (dirOf p, p)) := by
  rw [write, if_pos (by simpa using h)]

theorem isDir_of_schema {schema : Bytes → Option (List Str)} {fs : FS} (ho : Once fs) {d : Dir} {ds : List Str}
    (h : schemaIn schema fs d = some ds) : isDir fs d = true := by
  unfold schemaIn at h
  cases hf : findClaw fs d with
  | err => rw [hf] at h; cases h
  | panic => rw [hf] at h; cases h
  | ok n => exact ((findClaw_iff ho d n).1 hf).1

theorem contains_self (s : Str) : Str.contains s s = true := by
  rw [Claw.contains_iff]
  exact ⟨[], [], by simp⟩

theorem reach_needed {p q : Str} (hp : Needed b root dir name p) (h : Reach (importsOf b.world false root []) p q) :
    Needed b root dir name q := by
  induction h with
  | refl => exact hp
  | step _ hc ih => exact .step ih hc

/-- C140: in a repository in which everything is as clawc wants it, clawc succeeds. -/
theorem C140_succeeds (hm : RootModule b u dir root) (hs : Shuffles b) (hu : Tidy b u root dir name o r) {all : List Str}
    (hall : ∀ p, Needed b root dir name p → p ∈ all) (hd : all.length + 1 < depth) : ∃ ws, b.compile u depth dir name = .ok ws := by
  classical
  have hc := hu.clean
  obtain ⟨text, t1, t2⟩ := hm
  have hreq : root.required = [] := (Mod.C86_no_versions_no_lists u text root t2).1
  have hv0 : ∀ p, resolveVersion p root = [] := fun p => by simp [resolveVersion, hreq]
  obtain ⟨deps, hdeps⟩ := Option.isSome_iff_exists.1 hu.top
  have htop : importsOf b.world false root [] (pathOf (name :: dir)) = deps := by rw [importsOf, got_top hu hdeps]
  -- everything that is needed can be had
  have hgot : ∀ p, Needed b root dir name p → ∃ x, Vendor.got b.world false root [] p = .ok x := by
    intro p hp
    by_cases ht : p = pathOf (name :: dir)
    · exact ⟨_, ht ▸ got_top hu hdeps⟩
    · obtain ⟨hl, ⟨rel, hi⟩ | ho⟩ := hu.paths p hp ht
      · obtain ⟨-, ⟨ds, h1⟩, -⟩ := hu.inside p rel hp ht hi
        exact ⟨_, inside_got hu hl hi h1⟩
      · obtain ⟨h1, -⟩ := hu.outside p hp ht ho
        obtain ⟨ds, h1⟩ := Option.isSome_iff_exists.1 h1
        obtain ⟨t, h1, h2⟩ := Option.bind_eq_some_iff.1 h1
        exact ⟨_, outside_got hu hreq hl ho h1 h2⟩
  -- it is collected
  have hcl : ∀ p ∈ all.filter (Needed b root dir name ·), ∀ d ∈ importsOf b.world false root [] p, d ∈ all.filter (Needed b root dir name ·) := by
    intro p hp d hd
    have hp := of_decide_eq_true (List.mem_filter.1 hp).2
    have : Needed b root dir name d := .step hp hd
    exact List.mem_filter.2 ⟨hall d this, decide_eq_true this⟩
  have hlen : (all.filter (Needed b root dir name ·)).length ≤ all.length := List.length_filter_le _ _
  obtain ⟨g, hg⟩ := Vendor.C90_succeeds (u := u) hcl (depth := depth) (by omega)
    (List.mem_filter.2 ⟨hall _ .refl, decide_eq_true .refl⟩) (hv0 (pathOf (name :: dir))) (fun p hp h => by
      obtain ⟨x, hx⟩ := hgot p hp
      rw [h] at hx; cases hx) hu.acyclic
  obtain ⟨k1, k2, k3, k4⟩ := Vendor.C90_graph (hv0 _) hg
  -- it may be imported
  have hacl : Vendor.validateACLs root g = true := by
    refine Vendor.C92_not_enforced (hv0 _) hg fun p hp hl => ?_
    have ha : ∀ p, applyReplace p root [] = p := fun p => by simp [applyReplace, hu.replace]
    rw [ha] at hl ⊢
    by_cases ht : p = pathOf (name :: dir)
    · subst ht
      simp only [Box.world, locate_pathOf b hu.place, fileAt, hu.file]
    · rw [(hu.paths p hp ht).1] at hl
      cases hl
  obtain ⟨rel0, hin0, hdir0⟩ := hu.own
  have hrepo : Mod.moduleInRepo root.path b.repo = true := by
    have h47 : (o ++ (lit "/" ++ rel0))[o.length]? = some 47 := by
      rw [List.getElem?_append_right (Nat.le_refl _), Nat.sub_self]; rfl
    rw [hu.work, hin0.1, Mod.moduleInRepo, List.append_assoc, h47]
    simp [Str.hasPrefix]
  have hdep : vendorDeps b.world u depth b.repo root [] (pathOf (name :: dir)) = .ok g := by
    rw [vendorDeps, hrepo, hg, Out.ok_bind, hacl]
    rfl
  -- it is vendored
  have hpk : ∀ q ∈ b.pkgs root g, Needed b root dir name q.path ∧ ∃ ds, Vendor.got b.world false root [] q.path = .ok (ds, q.shouldVendor) := by
    intro q hq
    simp only [Box.pkgs, List.mem_map] at hq
    obtain ⟨x, hx, rfl⟩ := hq
    exact ⟨(k2 _).1 (List.mem_map.2 ⟨x, hx, rfl⟩), _, k3 x hx⟩
  have hready : Ready b.vendorDir b.fs (b.pkgs root g) := by
    refine ⟨hu.once, ?_, ?_, ?_⟩
    · have : (b.pkgs root g).map (·.path) = g.map (·.1) := by simp [Box.pkgs]
      rw [this]
      exact k1
    · intro q hq hsq
      obtain ⟨h1, ds, h2⟩ := hpk q hq
      exact hc q.path ds h1 (hsq ▸ h2)
    · intro q hq hsq
      obtain ⟨h1, ds, h2⟩ := hpk q hq
      rw [hsq] at h2
      by_cases ht : q.path = pathOf (name :: dir)
      · rw [ht, got_top hu hdeps] at h2
        cases h2
      · obtain ⟨hl, ⟨rel, hi⟩ | ho⟩ := hu.paths q.path h1 ht
        · have := (got_inside hu.replace hu.git hu.origin hu.plain hi hl h2).1
          cases this
        · exact (hu.outside q.path h1 ht ho).2.2.2.1
  obtain ⟨fs, hfs, honce, hhas, hsame, hfits⟩ := create_get hready
  have P : Pre b dir name root g fs := ⟨k1, k2, k3, k4, hfs⟩
  -- what is read of it, and where it goes
  have hread : ∀ p, Needed b root dir name p → p ≠ pathOf (name :: dir) →
      b.vendoredFile fs p = some (importsOf b.world false root [] p) ∧ isDir fs (b.dirOf p) = true := by
    intro p hp ht
    obtain ⟨hl, ⟨rel, hi⟩ | ho⟩ := hu.paths p hp ht
    · obtain ⟨-, ⟨ds, h1⟩, -⟩ := hu.inside p rel hp ht hi
      have himp : importsOf b.world false root [] p = ds := by rw [importsOf, inside_got hu hl hi h1]
      obtain ⟨-, -, -, h4, h5, h6⟩ := Vendor.C94_inside_partial (rel := rel) hu.origin [] hi.2.2.1
      rw [← hi.1] at h4 h5 h6
      have hsc := P.schema hc hu.once hu.vendor hi.2.2.2 h1
      constructor
      · simp only [Box.vendoredFile, hu.git, h4, if_true, h6]
        rw [himp]
        exact hsc
      · simp only [Box.dirOf, hu.git, h4, if_true, h5]
        exact isDir_of_schema honce hsc
    · obtain ⟨h1, -, -, hf, -⟩ := hu.outside p hp ht ho
      obtain ⟨ds, h1⟩ := Option.isSome_iff_exists.1 h1
      obtain ⟨t, h1, h2⟩ := Option.bind_eq_some_iff.1 h1
      have hgp := outside_got hu hreq hl ho h1 h2
      have himp : importsOf b.world false root [] p = ds := by rw [importsOf, hgp]
      obtain ⟨x, hx, hxe⟩ := List.mem_map.1 ((k2 p).2 hp)
      have hgn := k3 x hx
      rw [hxe, hgp] at hgn
      simp only [Out.ok.injEq, Prod.mk.injEq] at hgn
      have hpk' : (⟨p, t, none, true⟩ : Pkg) ∈ b.pkgs root g := by
        simp only [Box.pkgs, List.mem_map]
        refine ⟨x, hx, ?_⟩
        have ha : applyReplace p root [] = p := by simp [applyReplace, hu.replace]
        rw [hxe, ha, hv0, h1, ← hgn.2]
        rfl
      have hh := hhas _ hpk' rfl
      have hfc : findClaw fs (pkgDir b.vendorDir p) = .ok (clawName p) := find_of honce hh (hfits p ho.2 hf)
      have hno : inRepo o p = false := ho.1
      constructor
      · simp only [Box.vendoredFile, hu.git, hno, Bool.false_eq_true, if_false]
        rw [schemaIn, hfc, himp]
        simp only [fileAt, show get fs (pkgDir b.vendorDir p) (clawName p) = some (.file t) from hh.schema, Option.bind_some]
        exact h2
      · simp only [Box.dirOf, hu.git, hno, Bool.false_eq_true, if_false]
        exact ((findClaw_iff honce _ _).1 hfc).1
  have hnottop : ∀ p q, Needed b root dir name p → q ∈ importsOf b.world false root [] p → q ≠ pathOf (name :: dir) := by
    rintro p q hp hq rfl
    refine hu.acyclic (pathOf (name :: dir)) .refl ?_
    rcases hp.cases_head with h | ⟨d, hd, hr⟩
    · exact ⟨_, h ▸ hq, .refl⟩
    · exact ⟨d, hd, .step hr hq⟩
  have hedge : ∀ p, Needed b root dir name p → p ≠ pathOf (name :: dir) → edgesOf (b.vendoredFile fs) p = importsOf b.world false root [] p := by
    intro p hp ht
    rw [edgesOf, (hread p hp ht).1]
    rfl
  have hreach : ∀ p q, Needed b root dir name p → p ≠ pathOf (name :: dir) → Reach (edgesOf (b.vendoredFile fs)) p q →
      Needed b root dir name q ∧ q ≠ pathOf (name :: dir) ∧ Reach (importsOf b.world false root []) p q := by
    intro p q hp ht h
    induction h with
    | refl => exact ⟨hp, ht, .refl⟩
    | step _ hx ih =>
      obtain ⟨i1, i2, i3⟩ := ih
      rw [hedge _ i1 i2] at hx
      exact ⟨.step i1 hx, hnottop _ _ i1 hx, .step i3 hx⟩
  -- a vendored package
  have hvend : ∀ p, Needed b root dir name p → p ≠ pathOf (name :: dir) → Outside o p →
      ∃ x, b.compileVendored u depth fs p = .ok x := by
    intro p hp ht ho
    obtain ⟨-, ⟨x, y, z, rest, e1, e2⟩, hnv, hf, hnm⟩ := hu.outside p hp ht ho
    have hno : inRepo o p = false := ho.1
    have hvf : b.vendoredFile fs p = schemaIn b.schema fs (pkgDir b.vendorDir p) := by
      simp only [Box.vendoredFile, hu.git, hno, Bool.false_eq_true, if_false]
    have hfile := (hread p hp ht).1
    have hmod : get fs (pkgDir b.vendorDir p) (lit "claw.mod") = none := by
      rw [hsame, hnm]
      intro q hq hsq hx
      obtain ⟨j1, j2, ds', j3⟩ := P.pkg hq
      rw [hsq] at j3
      have hqc := hc q.path ds' j1 j3
      rcases hx with hx | ⟨-, hx⟩ | hx
      · exact clawName_ne_mod _ (Prod.ext_iff.1 hx).2.symm
      · exact hx j2
      · exact not_below_mod ho.2 hqc hx
    have hmp : modulePath u fs (pkgDir b.vendorDir p) = .ok p := by
      rw [modulePath, hmod]
      simp only [C140_guess_right hu.plainVendor hu.dotless ho.2 e1 e2 hnv]
    obtain ⟨got, hgt⟩ := Vendor.C93_vendored_cycles_accepted (file := b.vendoredFile fs) (top := p) hfile
      (all := (all.filter (Needed b root dir name ·)).filter (· ≠ pathOf (name :: dir))) (n := depth) (by
        intro q hq e he
        obtain ⟨h1, h2⟩ := List.mem_filter.1 hq
        have h1' := of_decide_eq_true (List.mem_filter.1 h1).2
        have h2 := of_decide_eq_true h2
        rw [hedge q h1' h2] at he
        exact List.mem_filter.2 ⟨hcl q h1 e he, decide_eq_true (hnottop q e h1' he)⟩)
      (List.mem_filter.2 ⟨List.mem_filter.2 ⟨hall p hp, decide_eq_true hp⟩, decide_eq_true ht⟩)
      (Nat.lt_of_le_of_lt (List.length_filter_le _ _) (by omega))
      (fun q hq => by
        obtain ⟨h1, h2, -⟩ := hreach p q hp ht hq
        rw [(hread q h1 h2).1]; rfl)
      (by
        rintro ⟨d, hd, hr⟩
        rw [hedge p hp ht] at hd
        obtain ⟨-, -, h3⟩ := hreach d p (.step hp hd) (hnottop p d hp hd) hr
        exact hu.acyclic p hp ⟨d, hd, h3⟩)
    have hw : write fs b.dirOf got = .ok (got.map fun p => (b.dirOf p, p)) := by
      refine write_of fun q hq => ?_
      obtain ⟨h1, h2, -⟩ := hreach p q hp ht (((Vendor.C93_vendored hfile hgt).2.1 q).1 hq)
      exact (hread q h1 h2).2
    refine ⟨got.map fun p => (b.dirOf p, p), ?_⟩
    rw [Box.compileVendored, ← hvf, hfile]
    simp only [Out.ofOption, Out.ok_bind]
    rw [Box.readAndWrite, hmp, Out.ok_bind, hgt, Out.ok_bind, hw]
  -- a package of the repository
  have hloc : ∀ p rel, Needed b root dir name p → p ≠ pathOf (name :: dir) → Inside b o r p rel →
      ∃ x, b.compileLocal u depth fs p = .ok x := by
    intro p rel hp ht hi
    obtain ⟨h1, ⟨ds, h2⟩, h3⟩ := hu.inside p rel hp ht hi
    obtain ⟨-, -, c3, c4, c5, c6⟩ := Vendor.C94_inside_partial (rel := rel) hu.origin [] hi.2.2.1
    rw [← hi.1] at c3 c4 c5 c6
    have hplain : ∀ q, Needed b root dir name q → q ≠ pathOf (name :: dir) →
        b.plainFile fs o r q = some (importsOf b.world false root [] q) := by
      intro q hq hqt
      obtain ⟨hl, ⟨rel', hi'⟩ | ho⟩ := hu.paths q hq hqt
      · have hqi := (Vendor.C94_inside_partial (rel := rel') hu.origin [] hi'.2.2.1).2.2.2.1
        rw [← hi'.1] at hqi
        rw [← (hread q hq hqt).1]
        simp only [Box.plainFile, Box.vendoredFile, hu.git, hqi, if_true]
      · have hno : inRepo o q = false := ho.1
        obtain ⟨ds', e1⟩ := Option.isSome_iff_exists.1 (hu.outside q hq hqt ho).1
        obtain ⟨t, e2, e3⟩ := Option.bind_eq_some_iff.1 e1
        rw [importsOf, outside_got hu hreq hl ho e2 e3]
        simp only [Box.plainFile, hno, Bool.false_eq_true, if_false]
        exact e1
    have hedge' : ∀ q, Needed b root dir name q → q ≠ pathOf (name :: dir) →
        edgesOf (b.plainFile fs o r) q = importsOf b.world false root [] q := by
      intro q hq hqt
      rw [edgesOf, hplain q hq hqt]
      rfl
    have hreach' : ∀ p q, Needed b root dir name p → p ≠ pathOf (name :: dir) → Reach (edgesOf (b.plainFile fs o r)) p q →
        Needed b root dir name q ∧ q ≠ pathOf (name :: dir) ∧ Reach (importsOf b.world false root []) p q := by
      intro p q hp ht h
      induction h with
      | refl => exact ⟨hp, ht, .refl⟩
      | step _ hx ih =>
        obtain ⟨i1, i2, i4⟩ := ih
        rw [hedge' _ i1 i2] at hx
        exact ⟨.step i1 hx, hnottop _ _ i1 hx, .step i4 hx⟩
    have hfile : b.plainFile fs o r p = some ds := by
      rw [hplain p hp ht, importsOf, inside_got hu (hu.paths p hp ht).1 hi h2]
    have himp : importsOf b.world false root [] p = ds := by rw [importsOf, inside_got hu (hu.paths p hp ht).1 hi h2]
    obtain ⟨f1, f2⟩ := Vendor.C93_read_fails_iff (file := b.plainFile fs o r) (top := p) hfile
      (all := (all.filter (Needed b root dir name ·)).filter (· ≠ pathOf (name :: dir))) (n := depth) (by
        intro q hq e he
        obtain ⟨h1, h2⟩ := List.mem_filter.1 hq
        have h1' := of_decide_eq_true (List.mem_filter.1 h1).2
        have h2 := of_decide_eq_true h2
        rw [hedge' q h1' h2] at he
        exact List.mem_filter.2 ⟨hcl q h1 e he, decide_eq_true (hnottop q e h1' he)⟩)
      (List.mem_filter.2 ⟨List.mem_filter.2 ⟨hall p hp, decide_eq_true hp⟩, decide_eq_true ht⟩)
      (Nat.le_trans (List.length_filter_le _ _) (by omega))
    cases hgt : readTop (read (b.plainFile fs o r) depth) p ds with
    | panic => exact absurd hgt f2
    | err =>
      exfalso
      obtain ⟨q, hq, hx⟩ := f1.1 hgt
      obtain ⟨j1, j2, -⟩ := hreach' p q hp ht hq
      rcases hx with ⟨d, hd, hr⟩ | hx
      · rw [hedge' q j1 j2] at hd
        obtain ⟨-, -, hr⟩ := hreach' d q (.step j1 hd) (hnottop q d j1 hd) hr
        exact hu.acyclic q j1 ⟨d, hd, hr⟩
      · rw [hplain q j1 j2] at hx
        cases hx
    | ok got =>
      have hgr : ∀ q ∈ got, Needed b root dir name q ∧ q ≠ pathOf (name :: dir) ∧ Reach (importsOf b.world false root []) p q := fun q hq =>
        hreach' p q hp ht (((Vendor.C93_read hfile hgt).1 q).1 hq)
      have hguard : (got.all fun q => inRepo o q || b.goGet q) = true := by
        rw [List.all_eq_true]
        intro q hq
        rw [Bool.or_eq_true]
        exact h3 q (hgr q hq).2.2
      have hw : write fs (fun q => down r (splitBy 47 (absRel o q))) (got.filter (inRepo o)) =
          .ok ((got.filter (inRepo o)).map fun q => (down r (splitBy 47 (absRel o q)), q)) := by
        refine write_of fun q hq => ?_
        obtain ⟨hq, hqi⟩ := List.mem_filter.1 hq
        have := (hread q (hgr q hq).1 (hgr q hq).2.1).2
        simpa only [Box.dirOf, hu.git, hqi, if_true] using this
      refine ⟨(got.filter (inRepo o)).map fun q => (down r (splitBy 47 (absRel o q)), q), ?_⟩
      have hsc := P.schema hc hu.once hu.vendor hi.2.2.2 h2
      have hmp := P.modulePath u hc hu.vendor hi.2.2.2
      rw [h1] at hmp
      rw [Box.compileLocal, hu.work, c3]
      simp only [Out.ofOption, Out.ok_bind, hu.workDir, hu.git]
      rw [show down r (splitBy 47 rel) = pkgDir r rel from rfl, hsc]
      simp only [Out.ofOption, Out.ok_bind, hmp, hgt, hguard]
      exact hw
  -- the order
  have hmem : ∀ p, p ∈ b.shuffle g ↔ p ∈ g.map (·.1) := fun p => (hs g).mem_iff
  have hlg : (b.shuffle g).length < depth := by
    rw [(hs g).length_eq]
    have := Vendor.length_le_of_nodup k1 (u := all) (fun p hp => hall p ((k2 p).1 hp))
    omega
  obtain ⟨order, ho1, -, ho3⟩ := Vendor.C91_collected (hv0 _) hg hmem hlg
  obtain ⟨x, hx⟩ := compileAll_of (b := b) (u := u) (depth := depth) (fs := fs) (top := pathOf (name :: dir)) (l := order) (by
    intro p hp
    have hp := (ho3 p).1 hp
    rw [Box.compileOne]
    by_cases hcn : Str.contains p (pathOf (name :: dir)) = true
    · exact ⟨[], by rw [if_pos hcn]⟩
    · have ht : p ≠ pathOf (name :: dir) := by
        rintro rfl
        exact hcn (contains_self _)
      rw [if_neg hcn]
      obtain ⟨hl, ⟨rel, hi⟩ | ho⟩ := hu.paths p hp ht
      · have := (Vendor.C94_inside_partial (rel := rel) hu.origin [] hi.2.2.1).2.1
        rw [← hi.1] at this
        rw [hu.work, if_pos this]
        exact hloc p rel hp ht hi
      · rw [hu.work, if_neg (by simp [isLocalDependency, ho.1])]
        exact hvend p hp ht ho)
  -- the schema itself
  obtain ⟨-, -, -, c4, c5, c6⟩ := Vendor.C94_inside_partial (rel := rel0) hu.origin [] hin0.2.2.1
  rw [← hin0.1] at c4 c5 c6
  have hsc0 : schemaIn b.schema b.fs dir = some deps := by rw [schemaIn, hu.only]; exact hdeps
  have hsc := P.schema hc hu.once hu.vendor hu.beside hsc0
  have hfile : b.vendoredFile fs root.path = some deps := by
    simp only [Box.vendoredFile, hu.git, c4, if_true, c6]
    rw [show down r (splitBy 47 rel0) = dir from hdir0.symm]
    exact hsc
  have hdn : ∀ d ∈ deps, Needed b root dir name d ∧ d ≠ pathOf (name :: dir) := by
    intro d hd
    rw [← htop] at hd
    exact ⟨.step .refl hd, hnottop _ d .refl hd⟩
  have he0 : edgesOf (b.vendoredFile fs) root.path = deps := by rw [edgesOf, hfile]; rfl
  obtain ⟨got, hgt⟩ := Vendor.C93_vendored_cycles_accepted (file := b.vendoredFile fs) (top := root.path) hfile
    (all := root.path :: (all.filter (Needed b root dir name ·)).filter (· ≠ pathOf (name :: dir))) (n := depth) (by
      intro q hq e he
      refine List.mem_cons_of_mem _ ?_
      by_cases hqr : q = root.path
      · rw [hqr, he0] at he
        have := hdn e he
        exact List.mem_filter.2 ⟨List.mem_filter.2 ⟨hall e this.1, decide_eq_true this.1⟩, decide_eq_true this.2⟩
      · rcases List.mem_cons.1 hq with hq | hq
        · exact absurd hq hqr
        · obtain ⟨h1, h2⟩ := List.mem_filter.1 hq
          have h1' := of_decide_eq_true (List.mem_filter.1 h1).2
          have h2 := of_decide_eq_true h2
          rw [hedge q h1' h2] at he
          exact List.mem_filter.2 ⟨hcl q h1 e he, decide_eq_true (hnottop q e h1' he)⟩)
    (by simp) (by
      have : ((all.filter (Needed b root dir name ·)).filter (· ≠ pathOf (name :: dir))).length ≤ all.length :=
        Nat.le_trans (List.length_filter_le _ _) hlen
      rw [List.length_cons]
      omega)
    (fun q hq => by
      rcases (Vendor.reach_top hfile).1 hq with rfl | ⟨d, hd, hq⟩
      · rw [hfile]; rfl
      · obtain ⟨h1, h2, -⟩ := hreach d q (hdn d hd).1 (hdn d hd).2 hq
        rw [(hread q h1 h2).1]; rfl)
    (by
      rintro ⟨d, hd, hr⟩
      rw [he0] at hd
      obtain ⟨h1, h2, h3⟩ := hreach d root.path (hdn d hd).1 (hdn d hd).2 hr
      have : importsOf b.world false root [] root.path = deps := by rw [← hedge _ h1 h2, he0]
      exact hu.acyclic root.path h1 ⟨d, by rw [this]; exact hd, h3⟩)
  have hw : write fs b.dirOf got = .ok (got.map fun p => (b.dirOf p, p)) := by
    refine write_of fun q hq => ?_
    rcases (Vendor.reach_top hfile).1 (((Vendor.C93_vendored hfile hgt).2.1 q).1 hq) with rfl | ⟨d, hd, hq⟩
    · simp only [Box.dirOf, hu.git, c4, if_true, c5]
      rw [show down r (splitBy 47 rel0) = dir from hdir0.symm]
      exact isDir_of_schema honce hsc
    · obtain ⟨h1, h2, -⟩ := hreach d q (hdn d hd).1 (hdn d hd).2 hq
      exact (hread q h1 h2).2
  have hmp : modulePath u fs dir = .ok root.path := by
    rw [P.modulePath u hc hu.vendor hu.beside, modulePath]
    unfold fileAt at t1
    cases hgm : get b.fs dir (lit "claw.mod") with
    | none => rw [hgm] at t1; cases t1
    | some e =>
      rw [hgm] at t1
      cases e with
      | dir => cases t1
      | file t => cases t1; simp only [t2, Out.ok_bind]
  have hsame : get fs dir name = get b.fs dir name := P.same hc hu.beside fun q => by
    have := (hu.vendor name (q.subset (by simp))).1
    rw [hu.schema] at this
    cases this
  refine ⟨x ++ got.map fun p => (b.dirOf p, p), ?_⟩
  have hd' : (fileAt fs dir name).bind b.schema = some deps := by rw [fileAt, hsame]; exact hdeps
  rw [Box.compile, Box.vendored]
  simp only [t1, Out.ofOption, Out.ok_bind, t2, hdep, hfs, ho1, hx, hd', Box.readAndWrite, hmp, hgt, hw]

namespace Case

theorem good_top {p : Str} (h : Needed good carRoot (lit "car" :: app) (lit "car.claw") p) (hne : p ≠ pathOf (lit "car.claw" :: lit "car" :: app)) :
    p = maker ∨ p = wheel := by
  have := good_needed h
  simp only [List.mem_cons, List.not_mem_nil, or_false] at this
  rcases this with h | h
  · exact absurd h hne
  · exact h

theorem good_tidy : Tidy good Mod.ascii carRoot (lit "car" :: app) (lit "car.claw") (lit "github.com/me/app") app where
  toUsual := good_usual
  work := rfl
  workDir := rfl
  own := ⟨lit "car", ⟨by decide +kernel, ⟨by unfold Names; decide +kernel, by decide +kernel, by decide +kernel⟩, by decide +kernel, by decide +kernel⟩,
    by decide +kernel⟩
  only := by decide +kernel
  file := by decide +kernel
  top := by decide +kernel
  inside p rel hp hne hi := by
    rcases good_top hp hne with rfl | rfl
    · have hr : rel = lit "maker" := by
        have h1 : maker = lit "github.com/me/app" ++ lit "/" ++ lit "maker" := by decide +kernel
        exact (List.append_cancel_left (h1.symm.trans hi.1)).symm
      subst hr
      refine ⟨by decide +kernel, ⟨[], by decide +kernel⟩, fun q hq => ?_⟩
      have h0 : importsOf good.world false carRoot [] maker = [] := by decide +kernel
      rcases hq.cases_head with h | ⟨d, hd, -⟩
      · exact .inl (by rw [← h]; decide +kernel)
      · rw [h0] at hd; cases hd
    · have h2 : Str.hasPrefix (lit "github.com/me/app") wheel = true := by rw [hi.1]; simp [Str.hasPrefix]
      exact absurd h2 (by decide +kernel)
  outside p hp hne ho := by
    rcases good_top hp hne with rfl | rfl
    · exact absurd ho.1 (by decide +kernel)
    · refine ⟨by decide +kernel, ⟨lit "github.com", lit "you", lit "wheel", [], by decide +kernel, by decide +kernel⟩, by decide +kernel, ?_, by decide +kernel⟩
      refine ⟨?_, by decide +kernel, by decide +kernel, fun n _ h => absurd (none_of (by decide +kernel) n) h⟩
      have : (match mkdirAll good.fs (pkgDir good.vendorDir wheel) with | .ok _ => true | _ => false) = true := by decide +kernel
      cases h : mkdirAll good.fs (pkgDir good.vendorDir wheel) with
      | ok fs => exact room_of_mkdirAll h
      | err => rw [h] at this; cases this
      | panic => rw [h] at this; cases this
  plainVendor := by unfold Plain; decide +kernel
  dotless := by unfold Dotless; decide +kernel
  acyclic p hp := by
    have h0 : ∀ p ∈ [maker, wheel], importsOf good.world false carRoot [] p = [] := by decide +kernel
    by_cases ht : p = pathOf (lit "car.claw" :: lit "car" :: app)
    · rintro ⟨d, hd, hr⟩
      have h1 : ∀ q, Reach (importsOf good.world false carRoot []) d q → q ∈ [maker, wheel] := by
        intro q hq
        induction hq with
        | refl =>
          have h2 : ∀ d ∈ importsOf good.world false carRoot [] (pathOf (lit "car.claw" :: lit "car" :: app)), d ∈ [maker, wheel] := by
            decide +kernel
          rw [ht] at hd
          exact h2 d hd
        | step _ hc ih => rw [h0 _ ih] at hc; cases hc
      have := h1 p hr
      rw [ht] at this
      revert this; decide +kernel
    · have hp := good_top hp ht
      rintro ⟨d, hd, -⟩
      rw [h0 p (by simpa using hp)] at hd
      cases hd

example : ∃ ws, compiled good = .ok ws :=
  C140_succeeds good_module good_shuffles good_tidy (all := [carTop, maker, wheel]) (fun _ h => good_needed h) (by decide)

end Case

end Claw.Compile
