import Verif.Props.Get

/-!
# When `clawc get` succeeds (C141)
-/

namespace Claw.Compile

open Claw.Idl (Out Uni)
open Claw.Mod (Module splitBy)
open Claw.VendorDir
open Claw.Graph
open Claw.Vendor (World Graph hasSuffix inRepo absRel readRel applyReplace resolveVersion readVendored readTop importsOf edgesOf isLocalPath
  parseSpec)

variable {b : Box} {u : Uni} {depth : Nat} {pkg v o : Str} {r : Dir}

/-- A repository in which the package can be got. -/
structure Gettable (b : Box) (u : Uni) (pkg v o : Str) (r : Dir) : Prop extends Ordinary b u pkg v o r where
  /-- The package is not of the repository, and there is a dot in the first of three or more elements of its path. -/
  other : Outside o pkg
  path : ∃ x y z rest, splitBy 47 pkg = x :: y :: z :: rest ∧ 46 ∈ x
  notVendor : Str.contains (pathOf (pkgDir b.vendorDir pkg)) (lit "/vendor/") = false
  mod : get b.fs (pkgDir b.vendorDir pkg) (lit "claw.mod") = none
  /-- No directory on the way to the vendor directory has a dot in its name. -/
  plainVendor : Plain b.vendorDir
  dotless : Dotless b.vendorDir
  /-- All that is needed can be had, there is room for it, and no package imports itself, directly or through others. -/
  had : ∀ q, Wanted b (b.getRoot u) pkg v q → ((asked b (b.getRoot u) pkg v q).bind b.schema).isSome = true
  fits : ∀ q, Wanted b (b.getRoot u) pkg v q → Fits b.vendorDir b.fs q
  acyclic : ∀ q, Wanted b (b.getRoot u) pkg v q → ¬ Cyclic (asks b (b.getRoot u) pkg v) q

/-- C141: a package that can be had, with all it needs, is got. -/
theorem C141_succeeds (latest : Str → Out Str) {s : Str} (hs : parseSpec s = some (pkg, v)) (hv : v ≠ [] ∧ v ≠ lit "latest")
    (hu : Gettable b u pkg v o r) {all : List Str} (hall : ∀ q, Wanted b (b.getRoot u) pkg v q → q ∈ all) (hd : all.length < depth) :
    ∃ fs ws, b.get latest u depth s = .ok (fs, ws) := by
  classical
  have hreq := getRoot_required b u
  have hi := imports_asks (pkg := pkg) (v := v) hu.git hreq
  have hcl : ∀ p ∈ all.filter (Wanted b (b.getRoot u) pkg v ·), ∀ d ∈ asks b (b.getRoot u) pkg v p,
      d ∈ all.filter (Wanted b (b.getRoot u) pkg v ·) := by
    intro p hp d hd
    have hp := of_decide_eq_true (List.mem_filter.1 hp).2
    have : Wanted b (b.getRoot u) pkg v d := .step hp hd
    exact List.mem_filter.2 ⟨hall d this, decide_eq_true this⟩
  have hlen : (all.filter (Wanted b (b.getRoot u) pkg v ·)).length ≤ all.length := List.length_filter_le _ _
  have htop : pkg ∈ all.filter (Wanted b (b.getRoot u) pkg v ·) := List.mem_filter.2 ⟨hall _ .refl, decide_eq_true .refl⟩
  -- it is collected
  have hgot : ∀ q, Wanted b (b.getRoot u) pkg v q → ∃ ds, Vendor.got b.world true (Vendor.pinned (b.getRoot u) pkg v) [] q = .ok (ds, true) := by
    intro q hq
    obtain ⟨ds, h⟩ := Option.isSome_iff_exists.1 (hu.had q hq)
    exact ⟨ds, by rw [got_asked hu.git hreq, h]⟩
  have hcol : ∃ g, Vendor.process b.world u true (b.getRoot u) [] depth [] pkg v [] = .ok g := by
    rw [Vendor.process_top]
    cases h : Vendor.process b.world u true (Vendor.pinned (b.getRoot u) pkg v) [] depth [] pkg
        (resolveVersion pkg (Vendor.pinned (b.getRoot u) pkg v)) [] with
    | ok g => exact ⟨g, rfl⟩
    | err =>
      exfalso
      obtain ⟨q, hr, hx⟩ := Vendor.process_err depth [] pkg [] Vendor.good_empty (by simp) h
      rw [hi] at hr hx
      rcases hx with hx | hx
      · exact hu.acyclic q hr hx
      · obtain ⟨ds, hg⟩ := hgot q hr
        rw [hg] at hx; cases hx
    | panic =>
      exfalso
      obtain ⟨q, hr, hx⟩ := Vendor.process_panic (by rw [hi]; exact hcl) depth [] pkg [] Vendor.good_empty (by simp) (by simp) htop
        (by simp only [List.length_nil]; omega) h
      rw [hi] at hr
      obtain ⟨ds, hg⟩ := hgot q hr
      rw [hg] at hx; cases hx
  obtain ⟨g, hg⟩ := hcol
  have hg' := hg
  rw [Vendor.process_top] at hg'
  have hp := Vendor.process_ok depth [] pkg [] g Vendor.good_empty hg'
  have hm : ∀ q ∈ g.map (·.1), Wanted b (b.getRoot u) pkg v q := by
    intro q hq
    rcases hp.reach q hq with h | h
    · simp at h
    · rw [hi] at h; exact h
  have ha : ∀ q, applyReplace q (b.getRoot u) [] = q := fun q => by simp [applyReplace, hu.replace]
  -- it may be imported
  have hacl : Vendor.validateACLs (b.getRoot u) g = true := by
    rw [Vendor.validateACLs, List.all_eq_true]
    intro x hx
    have hl := (hu.paths x.1 (hm _ (List.mem_map.2 ⟨x, hx, rfl⟩))).1
    have hmod := (hp.good.node x hx).2
    rw [show applyReplace x.1 (Vendor.pinned (b.getRoot u) pkg v) [] = applyReplace x.1 (b.getRoot u) [] from rfl, ha, Vendor.moduleFile,
      if_neg (by rw [hl]; decide)] at hmod
    rw [hmod]
  -- it is vendored
  have hpath : (b.getPkgs (b.getRoot u) pkg v g).map (·.path) = g.map (·.1) := by simp [Box.getPkgs]
  have hpw : ∀ p ∈ b.getPkgs (b.getRoot u) pkg v g, Wanted b (b.getRoot u) pkg v p.path := by
    intro p hp
    exact hm _ (by rw [← hpath]; exact List.mem_map.2 ⟨p, hp, rfl⟩)
  obtain ⟨fs, hfs, -, -, hfits, -⟩ := VendorDir.all (v := b.vendorDir) (ps := b.getPkgs (b.getRoot u) pkg v g) (fs := b.fs)
    (fun p hp => (hu.paths _ (hpw p hp)).2.1) (by rw [hpath]; exact hp.good.nodup) (fun p hp => hu.fits _ (hpw p hp))
  have hvs : b.vendorSingle u depth pkg v = .ok fs := by
    simp only [Box.vendorSingle, hg, Out.ok_bind, hacl]
    exact hfs
  obtain ⟨g2, s2⟩ := single hu.git hvs
  have hcp := s2.cleanPaths fun q hq => (hu.paths q hq).2.1
  have hhas := (all_ok hcp s2.paths s2.made).1
  have hk := kept hu.once hcp s2.paths s2.made
  -- what is read of it, and where it goes
  have hown : ∀ q, Wanted b (b.getRoot u) pkg v q → schemaIn b.schema fs (pkgDir b.vendorDir q) = some (asks b (b.getRoot u) pkg v q) := by
    intro q hq
    obtain ⟨t, x, -, -, h2, h3⟩ := s2.one hq
    have hh := hhas _ h3
    have hf : findClaw fs (pkgDir b.vendorDir q) = .ok (clawName q) := find_of hk.once hh (hfits q (hu.paths q hq).2.1 (hu.fits q hq))
    rw [schemaIn, hf]
    simp only [fileAt, show get fs (pkgDir b.vendorDir q) (clawName q) = some (.file t) from hh.schema, Option.bind_some]
    exact h2
  have hread : ∀ q, Wanted b (b.getRoot u) pkg v q →
      b.vendoredFile fs q = some (asks b (b.getRoot u) pkg v q) ∧ isDir fs (b.dirOf q) = true := by
    intro q hq
    obtain ⟨-, -, ⟨rel, hin⟩ | ho⟩ := hu.paths q hq
    · have hvf := (C141_copies hu.toOrdinary hvs hq hin).2 fs
      obtain ⟨t, h1, h2⟩ := Option.bind_eq_some_iff.1 (Option.isSome_iff_exists.1 (hu.had q hq)).choose_spec
      rw [asked_inside hu.toOrdinary hq hin] at h1
      have ht := hk.text hu.once (fun n hn => (hu.vendor n hn).1) hin.2.2.2 h1
      have hsc : schemaIn b.schema fs (pkgDir r rel) = some (asks b (b.getRoot u) pkg v q) := by
        rw [schemaIn_text, ht, asks, asked_inside hu.toOrdinary hq hin, h1, Option.bind_some, h2]
        rfl
      refine ⟨by rw [hvf, hsc], ?_⟩
      obtain ⟨-, -, -, h4, h5, -⟩ := Vendor.C94_inside_partial (rel := rel) hu.origin [] hin.2.2.1
      rw [← hin.1] at h4 h5
      simp only [Box.dirOf, hu.git, h4, if_true, h5]
      exact isDir_of_schema hk.once hsc
    · have hno : inRepo o q = false := ho.1
      simp only [Box.vendoredFile, Box.dirOf, hu.git, hno, Bool.false_eq_true, if_false]
      exact ⟨hown q hq, isDir_of_schema hk.once (hown q hq)⟩
  have hedge : ∀ q, Wanted b (b.getRoot u) pkg v q → edgesOf (b.vendoredFile fs) q = asks b (b.getRoot u) pkg v q := by
    intro q hq
    rw [edgesOf, (hread q hq).1]
    rfl
  have hreach : ∀ p q, Wanted b (b.getRoot u) pkg v p → Reach (edgesOf (b.vendoredFile fs)) p q →
      Wanted b (b.getRoot u) pkg v q ∧ Reach (asks b (b.getRoot u) pkg v) p q := by
    intro p q hp h
    induction h with
    | refl => exact ⟨hp, .refl⟩
    | step _ hx ih =>
      obtain ⟨i1, i2⟩ := ih
      rw [hedge _ i1] at hx
      exact ⟨.step i1 hx, .step i2 hx⟩
  have hfile := (hread pkg .refl).1
  obtain ⟨got, hgt⟩ := Vendor.C93_vendored_cycles_accepted (file := b.vendoredFile fs) (top := pkg) hfile
    (all := all.filter (Wanted b (b.getRoot u) pkg v ·)) (n := depth) (by
      intro q hq e he
      rw [hedge q (of_decide_eq_true (List.mem_filter.1 hq).2)] at he
      exact hcl q hq e he) htop (by omega)
    (fun q hq => by rw [(hread q (hreach pkg q .refl hq).1).1]; rfl)
    (by
      rintro ⟨d, hd, hr⟩
      rw [hedge pkg .refl] at hd
      exact hu.acyclic pkg .refl ⟨d, hd, (hreach d pkg (.step .refl hd) hr).2⟩)
  have hw : write fs b.dirOf got = .ok (got.map fun p => (b.dirOf p, p)) := by
    refine write_of fun q hq => ?_
    exact (hread q (hreach pkg q .refl (((Vendor.C93_vendored hfile hgt).2.1 q).1 hq)).1).2
  -- its path
  have hmod : get fs (pkgDir b.vendorDir pkg) (lit "claw.mod") = none := by
    rw [(all_ok hcp s2.paths s2.made).2.1, hu.mod]
    intro p hp ht
    have hpc := hcp p hp
    simp only [Box.getPkgs, List.mem_map] at hp
    obtain ⟨x, hx, rfl⟩ := hp
    rcases ht with ht | ⟨-, ht⟩ | ht
    · exact clawName_ne_mod _ (Prod.ext_iff.1 ht).2.symm
    · have hl := (hu.paths _ ((s2.wanted _).1 (List.mem_map.2 ⟨x, hx, rfl⟩))).1
      have hnone : x.2.mod = none := by rw [s2.mod x hx, ha, Vendor.moduleFile, if_neg (by rw [hl]; decide)]
      exact ht (by simp [hnone])
    · exact not_below_mod (hu.paths pkg .refl).2.1 hpc ht
  obtain ⟨x, y, z, rest, e1, e2⟩ := hu.path
  have hmp : modulePath u fs (pkgDir b.vendorDir pkg) = .ok pkg := by
    rw [modulePath, hmod]
    simp only [C140_guess_right hu.plainVendor hu.dotless hu.other.2 e1 e2 hu.notVendor]
  refine ⟨fs, got.map fun p => (b.dirOf p, p), ?_⟩
  have h1 : toGet latest pkg v = .ok v := by rw [toGet, if_neg (by simp [hv])]
  simp only [Box.get, hs, Out.ofOption, Out.ok_bind, h1, hvs, Box.compileVendored, hown pkg .refl, Box.readAndWrite, hmp, hgt, hw]

namespace Case

theorem room_of {fs : FS} {d : Dir} (h : (match mkdirAll fs d with | .ok _ => true | _ => false) = true) : Room fs d := by
  cases h' : mkdirAll fs d with
  | ok fs => exact room_of_mkdirAll h'
  | err => rw [h'] at h; cases h
  | panic => rw [h'] at h; cases h

theorem shop_gettable : Gettable shop Mod.ascii wheel (lit "v1") (lit "github.com/me/app") app where
  toOrdinary := shop_ordinary
  other := ⟨by decide +kernel, clean_wheel⟩
  path := ⟨lit "github.com", lit "you", lit "wheel", [], by decide +kernel, by decide +kernel⟩
  notVendor := by decide +kernel
  mod := by decide +kernel
  plainVendor := by unfold Plain; decide +kernel
  dotless := by unfold Dotless; decide +kernel
  had q hq := by
    have := shop_wanted hq
    rw [shop_root]
    revert q
    have : ∀ q ∈ [wheel, tyre, maker], ((asked shop carRoot wheel (lit "v1") q).bind shop.schema).isSome = true := by decide +kernel
    intro q _ hq
    exact this q hq
  fits q hq := by
    have := shop_wanted hq
    simp only [List.mem_cons, List.not_mem_nil, or_false] at this
    rcases this with rfl | rfl | rfl
    · exact ⟨room_of (by decide +kernel), by decide +kernel, by decide +kernel, fun n _ h => absurd (none_of (by decide +kernel) n) h⟩
    · exact ⟨room_of (by decide +kernel), by decide +kernel, by decide +kernel, fun n _ h => absurd (none_of (by decide +kernel) n) h⟩
    · exact ⟨room_of (by decide +kernel), by decide +kernel, by decide +kernel, fun n _ h => absurd (none_of (by decide +kernel) n) h⟩
  acyclic q hq := by
    have hq := shop_wanted hq
    rw [shop_root]
    have h0 : ∀ p ∈ [tyre, maker], asks shop carRoot wheel (lit "v1") p = [] := by decide +kernel
    have h2 : asks shop carRoot wheel (lit "v1") wheel = [tyre, maker] := by decide +kernel
    rintro ⟨d, hd, hr⟩
    have h3 : ∀ e, d ∈ [tyre, maker] → Reach (asks shop carRoot wheel (lit "v1")) d e → e ∈ [tyre, maker] := by
      intro e hd h
      induction h with
      | refl => exact hd
      | step _ hc ih => rw [h0 _ ih] at hc; cases hc
    rcases List.mem_cons.1 hq with rfl | hq
    · rw [h2] at hd
      exact absurd (h3 _ hd hr) (by decide +kernel)
    · rw [h0 q hq] at hd
      cases hd

example : ∃ fs ws, shop.get noLatest Mod.ascii 10 (lit "github.com/you/wheel@v1") = .ok (fs, ws) :=
  C141_succeeds noLatest (by decide +kernel) (by decide) shop_gettable (all := [wheel, tyre, maker]) (fun _ h => shop_wanted h) (by decide)

end Case

end Claw.Compile
