import Verif.Lemmas.VendorDir

/-!
# The vendor directory (C138)
-/

namespace Claw.VendorDir

open Claw.Idl (Out)
open Claw.Mod (splitBy)
open Claw.Vendor (hasSuffix)

/-- A package path of plain names none of which is that of a file in the vendor directory. -/
structure Clean (path : Str) : Prop where
  names : Names (splitBy 47 path)
  claw : ∀ x ∈ splitBy 47 path, hasSuffix (lit ".claw") x = false
  mod : lit "claw.mod" ∉ splitBy 47 path

/-- Nothing is in the way of the package: no file is where a directory is to be, no directory where a file is to be, and no other schema
is in its directory. -/
structure Fits (v : Dir) (fs : FS) (path : Str) : Prop where
  room : Room fs (pkgDir v path)
  schema : get fs (pkgDir v path) (clawName path) ≠ some .dir
  mod : get fs (pkgDir v path) (lit "claw.mod") ≠ some .dir
  only : ∀ n, hasSuffix (lit ".claw") n = true → get fs (pkgDir v path) n ≠ none → n = clawName path

/-- The package is in the vendor directory as it was fetched. -/
structure Has (v : Dir) (fs : FS) (p : Pkg) : Prop where
  schema : get fs (pkgDir v p.path) (clawName p.path) = some (.file p.content)
  mod : ∀ m, p.mod = some m → get fs (pkgDir v p.path) (lit "claw.mod") = some (.file m)
  dirs : ∀ n e, n :: e <:+ pkgDir v p.path → get fs e n = some .dir

/-- Vendoring the package writes this. -/
def Touches (v : Dir) (p : Pkg) (e : Dir) (n : Str) : Prop :=
  (e, n) = (pkgDir v p.path, clawName p.path) ∨ ((e, n) = (pkgDir v p.path, lit "claw.mod") ∧ p.mod ≠ none) ∨ n :: e <:+ pkgDir v p.path

theorem clawName_suffix (path : Str) : hasSuffix (lit ".claw") (clawName path) = true := by
  unfold hasSuffix clawName
  rw [List.isSuffixOf_iff_suffix]
  exact List.suffix_append _ _

theorem mod_suffix : hasSuffix (lit ".claw") (lit "claw.mod") = false := by decide

theorem clawName_ne_mod (path : Str) : clawName path ≠ lit "claw.mod" := by
  intro h
  have := clawName_suffix path
  rw [h, mod_suffix] at this
  cases this

theorem pkgDir_clean (v : Dir) {path : Str} (h : Clean path) : pkgDir v path = (splitBy 47 path).reverse ++ v := down_names v h.names

theorem pkgDir_inj {v : Dir} {a b : Str} (ha : Clean a) (hb : Clean b) (h : pkgDir v a = pkgDir v b) : a = b := by
  rw [pkgDir_clean v ha, pkgDir_clean v hb] at h
  exact splitBy_inj (List.reverse_inj.1 (List.append_cancel_right h))

theorem mem_of_below {x : Str} {a b v : Dir} (h : x :: (a ++ v) <:+ b ++ v) : x ∈ b := by
  obtain ⟨t, ht⟩ := h
  have : (t ++ x :: a) ++ v = b ++ v := by simpa using ht
  rw [← List.append_cancel_right this]
  simp

/-- What is in the directory of a package and on the way to another one is an element of its path. -/
theorem below {v : Dir} {a b x : Str} (ha : Clean a) (hb : Clean b) (h : x :: pkgDir v a <:+ pkgDir v b) : x ∈ splitBy 47 b := by
  rw [pkgDir_clean v ha, pkgDir_clean v hb] at h
  simpa using mem_of_below h

theorem not_below_claw {v : Dir} {a b x : Str} (ha : Clean a) (hb : Clean b) (hx : hasSuffix (lit ".claw") x = true) : ¬ x :: pkgDir v a <:+ pkgDir v b := by
  intro h
  have := hb.claw x (below ha hb h)
  rw [hx] at this
  cases this

theorem not_below_mod {v : Dir} {a b : Str} (ha : Clean a) (hb : Clean b) : ¬ lit "claw.mod" :: pkgDir v a <:+ pkgDir v b :=
  fun h => hb.mod (below ha hb h)

theorem writeFile_ok {fs : FS} {d : Dir} {n : Str} {t : Bytes} (h : get fs d n ≠ some .dir) : writeFile fs d n t = .ok (put fs d n (.file t)) := by
  unfold writeFile
  split
  · rename_i h'; exact absurd h' h
  · rfl

theorem step {v : Dir} {fs : FS} {p : Pkg} (hf : Fits v fs p.path) :
    ∃ fs', vendorPackage v fs p = .ok fs' ∧ Has v fs' p ∧ ∀ e n, ¬ Touches v p e n → get fs' e n = get fs e n := by
  obtain ⟨f1, h1, h2⟩ := mkdirAll_get hf.room
  have nd : ∀ n, ¬ n :: pkgDir v p.path <:+ pkgDir v p.path := fun n hs => by have := hs.length_le; simp at this; omega
  have g1 : get f1 (pkgDir v p.path) (clawName p.path) ≠ some .dir := by rw [h2, if_neg (nd _)]; exact hf.schema
  have hne : (pkgDir v p.path, clawName p.path) ≠ (pkgDir v p.path, lit "claw.mod") := fun h => clawName_ne_mod _ (Prod.ext_iff.1 h).2
  have hne' : (pkgDir v p.path, lit "claw.mod") ≠ (pkgDir v p.path, clawName p.path) := fun h => hne h.symm
  have g2 : get (put f1 (pkgDir v p.path) (clawName p.path) (.file p.content)) (pkgDir v p.path) (lit "claw.mod") ≠ some .dir := by
    rw [get_put_other _ _ hne', h2, if_neg (nd _)]; exact hf.mod
  have dn : ∀ {n e x}, n :: e <:+ pkgDir v p.path → (e, n) ≠ (pkgDir v p.path, x) := by
    intro n e x hs he
    simp only [Prod.mk.injEq] at he
    obtain ⟨rfl, rfl⟩ := he
    exact nd _ hs
  cases hm : p.mod with
  | none =>
    refine ⟨put f1 (pkgDir v p.path) (clawName p.path) (.file p.content), by simp only [vendorPackage, h1, Out.ok_bind, writeFile_ok g1, hm], ⟨get_put_same _ _ _ _, ?_, ?_⟩, ?_⟩
    · intro m h; rw [hm] at h; cases h
    · intro n e hs
      rw [get_put_other _ _ (dn hs), h2, if_pos hs]
    · intro e n ht
      rw [get_put_other _ _ (fun q => ht (Or.inl q)), h2, if_neg (fun q => ht (Or.inr (Or.inr q)))]
  | some m =>
    refine ⟨put (put f1 (pkgDir v p.path) (clawName p.path) (.file p.content)) (pkgDir v p.path) (lit "claw.mod") (.file m),
      by simp only [vendorPackage, h1, Out.ok_bind, writeFile_ok g1, hm, writeFile_ok g2], ⟨?_, ?_, ?_⟩, ?_⟩
    · rw [get_put_other _ _ hne, get_put_same]
    · intro m' h; rw [hm] at h; cases h; rw [get_put_same]
    · intro n e hs
      rw [get_put_other _ _ (dn hs), get_put_other _ _ (dn hs), h2, if_pos hs]
    · intro e n ht
      rw [get_put_other _ _ (fun q => ht (Or.inr (Or.inl ⟨q, by simp [hm]⟩))), get_put_other _ _ (fun q => ht (Or.inl q)), h2,
        if_neg (fun q => ht (Or.inr (Or.inr q)))]

/-- Vendoring a package leaves room for every package. -/
theorem fits_step {v : Dir} {fs fs' : FS} {p : Pkg} {q : Str} (hp : Clean p.path) (hq : Clean q) (hf : Fits v fs q) (hh : Has v fs' p)
    (hu : ∀ e n, ¬ Touches v p e n → get fs' e n = get fs e n) : Fits v fs' q := by
  constructor
  · intro n e hs
    by_cases ht : Touches v p e n
    · rcases ht with ht | ⟨ht, _⟩ | ht
      · simp only [Prod.mk.injEq] at ht
        obtain ⟨rfl, rfl⟩ := ht
        exact absurd hs (not_below_claw hp hq (clawName_suffix _))
      · simp only [Prod.mk.injEq] at ht
        obtain ⟨rfl, rfl⟩ := ht
        exact absurd hs (not_below_mod hp hq)
      · exact Or.inr (hh.dirs n e ht)
    · rw [hu e n ht]; exact hf.room n e hs
  · by_cases ht : Touches v p (pkgDir v q) (clawName q)
    · rcases ht with ht | ⟨ht, hm⟩ | ht
      · simp only [Prod.mk.injEq] at ht
        rw [ht.1, ht.2, hh.schema]; simp
      · simp only [Prod.mk.injEq] at ht
        exact absurd ht.2 (clawName_ne_mod _)
      · exact absurd ht (not_below_claw hq hp (clawName_suffix _))
    · rw [hu _ _ ht]; exact hf.schema
  · by_cases ht : Touches v p (pkgDir v q) (lit "claw.mod")
    · rcases ht with ht | ⟨ht, hm⟩ | ht
      · simp only [Prod.mk.injEq] at ht
        exact absurd ht.2.symm (clawName_ne_mod _)
      · simp only [Prod.mk.injEq, and_true] at ht
        obtain ⟨m, hm⟩ := Option.ne_none_iff_exists'.1 hm
        rw [ht, hh.mod m hm]; simp
      · exact absurd ht (not_below_mod hq hp)
    · rw [hu _ _ ht]; exact hf.mod
  · intro n hn hg
    by_cases ht : Touches v p (pkgDir v q) n
    · rcases ht with ht | ⟨ht, hm⟩ | ht
      · simp only [Prod.mk.injEq] at ht
        rw [ht.2, pkgDir_inj hq hp ht.1]
      · simp only [Prod.mk.injEq] at ht
        rw [ht.2, mod_suffix] at hn
        cases hn
      · exact absurd ht (not_below_claw hq hp hn)
    · rw [hu _ _ ht] at hg; exact hf.only n hn hg

/-- A package that is there stays when another one is vendored. -/
theorem has_step {v : Dir} {fs fs' : FS} {p q : Pkg} (hp : Clean p.path) (hq : Clean q.path) (hne : q.path ≠ p.path) (hf : Has v fs q) (hh : Has v fs' p)
    (hu : ∀ e n, ¬ Touches v p e n → get fs' e n = get fs e n) : Has v fs' q := by
  have hd : pkgDir v q.path ≠ pkgDir v p.path := fun h => hne (pkgDir_inj hq hp h)
  constructor
  · rw [hu, hf.schema]
    rintro (ht | ⟨ht, _⟩ | ht)
    · exact hd (Prod.ext_iff.1 ht).1
    · exact hd (Prod.ext_iff.1 ht).1
    · exact not_below_claw hq hp (clawName_suffix _) ht
  · intro m hm
    rw [hu, hf.mod m hm]
    rintro (ht | ⟨ht, _⟩ | ht)
    · exact hd (Prod.ext_iff.1 ht).1
    · exact hd (Prod.ext_iff.1 ht).1
    · exact not_below_mod hq hp ht
  · intro n e hs
    by_cases ht : Touches v p e n
    · rcases ht with ht | ⟨ht, _⟩ | ht
      · simp only [Prod.mk.injEq] at ht
        obtain ⟨rfl, rfl⟩ := ht
        exact absurd hs (not_below_claw hp hq (clawName_suffix _))
      · simp only [Prod.mk.injEq] at ht
        obtain ⟨rfl, rfl⟩ := ht
        exact absurd hs (not_below_mod hp hq)
      · exact hh.dirs n e ht
    · rw [hu _ _ ht]; exact hf.dirs n e hs

theorem all {v : Dir} : ∀ {ps : List Pkg} {fs : FS}, (∀ p ∈ ps, Clean p.path) → (ps.map (·.path)).Nodup → (∀ p ∈ ps, Fits v fs p.path) →
    ∃ fs', vendorAll v fs ps = .ok fs' ∧ (∀ p ∈ ps, Has v fs' p) ∧ (∀ e n, (∀ p ∈ ps, ¬ Touches v p e n) → get fs' e n = get fs e n) ∧
      (∀ q, Clean q → Fits v fs q → Fits v fs' q) ∧ ∀ q, Clean q.path → q.path ∉ ps.map (·.path) → Has v fs q → Has v fs' q
  | [], fs, _, _, _ => ⟨fs, rfl, by simp, fun _ _ _ => rfl, fun _ _ h => h, fun _ _ _ h => h⟩
  | p :: ps, fs, hc, hn, hf => by
    have hp := hc p (by simp)
    obtain ⟨f1, h1, h2, h3⟩ := step (hf p (by simp))
    simp only [List.map_cons, List.nodup_cons] at hn
    obtain ⟨f2, k1, k2, k3, k4, k5⟩ := all (v := v) (ps := ps) (fs := f1) (fun q hq => hc q (by simp [hq])) hn.2
      (fun q hq => fits_step hp (hc q (by simp [hq])) (hf q (by simp [hq])) h2 h3)
    refine ⟨f2, by simp only [vendorAll, h1, Out.ok_bind, k1], ?_, ?_, ?_, ?_⟩
    · intro q hq
      rcases List.mem_cons.1 hq with rfl | hq
      · exact k5 q hp hn.1 h2
      · exact k2 q hq
    · intro e n ht
      rw [k3 e n (fun q hq => ht q (by simp [hq])), h3 e n (ht p (by simp))]
    · intro q hq hfq
      exact k4 q hq (fits_step hp hq hfq h2 h3)
    · intro q hq hnm hhq
      simp only [List.map_cons, List.mem_cons, not_or] at hnm
      exact k5 q hq hnm.2 (has_step hp hq hnm.1 hhq h2 h3)

/-- A package fits, once the vendor directory is made, as it did before. -/
theorem fits_vendorDir {v : Dir} {fs f1 : FS} {q : Str} (hq : Clean q) (hf : Fits v fs q)
    (h : ∀ e n, (n :: e <:+ v ∧ get f1 e n = some .dir) ∨ (¬ n :: e <:+ v ∧ get f1 e n = get fs e n)) : Fits v f1 q := by
  have nv : ∀ n, ¬ n :: pkgDir v q <:+ v := fun n hs => by
    have := hs.length_le
    rw [pkgDir_clean v hq] at this
    simp at this
    omega
  constructor
  · intro n e hs
    rcases h e n with ⟨_, h⟩ | ⟨_, h⟩
    · exact Or.inr h
    · rw [h]; exact hf.room n e hs
  · rcases h (pkgDir v q) (clawName q) with ⟨h, _⟩ | ⟨_, h⟩
    · exact absurd h (nv _)
    · rw [h]; exact hf.schema
  · rcases h (pkgDir v q) (lit "claw.mod") with ⟨h, _⟩ | ⟨_, h⟩
    · exact absurd h (nv _)
    · rw [h]; exact hf.mod
  · intro n hn hg
    rcases h (pkgDir v q) n with ⟨h, _⟩ | ⟨_, h⟩
    · exact absurd h (nv _)
    · rw [h] at hg; exact hf.only n hn hg

/-- The nodes of a graph, with what is vendored of them fit to be. -/
structure Ready (v : Dir) (fs : FS) (nodes : List Pkg) : Prop where
  once : Once fs
  distinct : (nodes.map (·.path)).Nodup
  clean : ∀ p ∈ nodes, p.shouldVendor = true → Clean p.path
  fits : ∀ p ∈ nodes, p.shouldVendor = true → Fits v fs p.path

theorem create_get {v : Dir} {fs : FS} {nodes : List Pkg} (h : Ready v fs nodes) :
    ∃ fs', create v fs nodes = .ok fs' ∧ Once fs' ∧ (∀ p ∈ nodes, p.shouldVendor = true → Has v fs' p) ∧
      (∀ e n, (∀ p ∈ nodes, p.shouldVendor = true → ¬ Touches v p e n) → get fs' e n = get fs e n) ∧
      (∀ q, Clean q → Fits v fs q → Fits v fs' q) := by
  by_cases ha : nodes.any (·.shouldVendor) = true
  · obtain ⟨p0, hp0, hs0⟩ := List.any_eq_true.1 ha
    have hr : Room fs v := fun n e hs => (h.fits p0 hp0 hs0).room n e (by
      rw [pkgDir_clean v (h.clean p0 hp0 hs0)]; exact hs.trans (List.suffix_append _ _))
    obtain ⟨f1, h1, h2⟩ := mkdirAll_get hr
    have h2' : ∀ e n, (n :: e <:+ v ∧ get f1 e n = some .dir) ∨ (¬ n :: e <:+ v ∧ get f1 e n = get fs e n) := by
      intro e n
      rw [h2]
      by_cases hs : n :: e <:+ v
      · exact Or.inl ⟨hs, if_pos hs⟩
      · exact Or.inr ⟨hs, if_neg hs⟩
    have hm : ∀ p, p ∈ nodes.filter (·.shouldVendor) ↔ p ∈ nodes ∧ p.shouldVendor = true := fun p => List.mem_filter
    obtain ⟨f2, k1, k2, k3, k4, _⟩ := all (v := v) (ps := nodes.filter (·.shouldVendor)) (fs := f1)
      (fun p hp => h.clean p ((hm p).1 hp).1 ((hm p).1 hp).2) (h.distinct.sublist (List.Sublist.map _ List.filter_sublist))
      (fun p hp => fits_vendorDir (h.clean p ((hm p).1 hp).1 ((hm p).1 hp).2) (h.fits p ((hm p).1 hp).1 ((hm p).1 hp).2) h2')
    have hcr : create v fs nodes = .ok f2 := by simp only [create, ha, if_true, h1, Out.ok_bind, k1]
    refine ⟨f2, hcr, once_create h.once hcr, fun p hp hs => k2 p ((hm p).2 ⟨hp, hs⟩), fun e n ht => ?_, fun q hq hf => k4 q hq (fits_vendorDir hq hf h2')⟩
    rw [k3 e n (fun p hp => ht p ((hm p).1 hp).1 ((hm p).1 hp).2)]
    rcases h2' e n with ⟨hs, _⟩ | ⟨_, hg⟩
    · exact absurd (Or.inr (Or.inr (by rw [pkgDir_clean v (h.clean p0 hp0 hs0)]; exact hs.trans (List.suffix_append _ _)))) (ht p0 hp0 hs0)
    · exact hg
  · refine ⟨fs, by simp only [create, ha, Bool.false_eq_true, if_false], h.once, fun p hp hs => ?_, fun _ _ _ => rfl, fun _ _ hf => hf⟩
    exact absurd (List.any_eq_true.2 ⟨p, hp, hs⟩) ha

theorem find_of {v : Dir} {fs : FS} {p : Pkg} (ho : Once fs) (hh : Has v fs p) (hf : Fits v fs p.path) :
    findClaw fs (pkgDir v p.path) = .ok (clawName p.path) := by
  rw [findClaw_iff ho]
  refine ⟨?_, fun n hn => ⟨⟨hf.only n hn, fun e => ?_⟩, clawName_suffix _, by rw [hh.schema]; simp⟩⟩
  · cases hd : pkgDir v p.path with
    | nil => rfl
    | cons n d =>
      have := hh.dirs n d (by rw [hd]; exact List.suffix_refl _)
      simp [isDir, this]
  · rw [e, hh.schema]; simp

/-- C138: whatever order Go takes the packages in, vendoring succeeds; of each package that is to be vendored the compiler then finds the
schema, and it is the one that was fetched, and so is its claw.mod. -/
theorem C138_vendored_partial {v : Dir} {fs : FS} {nodes : List Pkg} (h : Ready v fs nodes) :
    ∃ fs', create v fs nodes = .ok fs' ∧ ∀ p ∈ nodes, p.shouldVendor = true →
      findClaw fs' (pkgDir v p.path) = .ok (clawName p.path) ∧ get fs' (pkgDir v p.path) (clawName p.path) = some (.file p.content) ∧
      (∀ m, p.mod = some m → get fs' (pkgDir v p.path) (lit "claw.mod") = some (.file m)) := by
  obtain ⟨fs', h1, h2, h3, _, h5⟩ := create_get h
  refine ⟨fs', h1, fun p hp hs => ⟨find_of h2 (h3 p hp hs) (h5 _ (h.clean p hp hs) (h.fits p hp hs)), (h3 p hp hs).schema, (h3 p hp hs).mod⟩⟩

/-- C138: the order in which Go takes the packages makes no difference to any file or directory. -/
theorem C138_order {v : Dir} {fs : FS} {nodes nodes' : List Pkg} (h : Ready v fs nodes) (hp : nodes.Perm nodes') :
    ∃ f1 f2, create v fs nodes = .ok f1 ∧ create v fs nodes' = .ok f2 ∧ ∀ e n, get f1 e n = get f2 e n := by
  have h' : Ready v fs nodes' := ⟨h.once, (hp.map _).nodup_iff.1 h.distinct, fun p hq => h.clean p (hp.mem_iff.2 hq), fun p hq => h.fits p (hp.mem_iff.2 hq)⟩
  obtain ⟨f1, a1, _, a3, a4, _⟩ := create_get h
  obtain ⟨f2, b1, _, b3, b4, _⟩ := create_get h'
  refine ⟨f1, f2, a1, b1, fun e n => ?_⟩
  by_cases ht : ∃ p ∈ nodes, p.shouldVendor = true ∧ Touches v p e n
  · obtain ⟨p, hm, hs, ht⟩ := ht
    have x1 := a3 p hm hs
    have x2 := b3 p (hp.mem_iff.1 hm) hs
    rcases ht with ht | ⟨ht, hmod⟩ | ht
    · simp only [Prod.mk.injEq] at ht
      rw [ht.1, ht.2, x1.schema, x2.schema]
    · simp only [Prod.mk.injEq] at ht
      obtain ⟨m, hmod⟩ := Option.ne_none_iff_exists'.1 hmod
      rw [ht.1, ht.2, x1.mod m hmod, x2.mod m hmod]
    · rw [x1.dirs n e ht, x2.dirs n e ht]
  · have hn : ∀ p ∈ nodes, p.shouldVendor = true → ¬ Touches v p e n := fun p hm hs q => ht ⟨p, hm, hs, q⟩
    rw [a4 e n hn, b4 e n (fun p hm => hn p (hp.mem_iff.2 hm))]

/-- C138: nothing is written outside of the vendor directory but the directories on the way to it, and nothing at all where no package is
to be vendored. -/
theorem C138_outside {v : Dir} {fs : FS} {nodes : List Pkg} (h : Ready v fs nodes) :
    (∃ fs', create v fs nodes = .ok fs' ∧ ∀ e n, ¬ v <:+ e → ¬ n :: e <:+ v → get fs' e n = get fs e n) ∧
    ((∀ p ∈ nodes, p.shouldVendor = false) → create v fs nodes = .ok fs) := by
  constructor
  · obtain ⟨fs', h1, _, _, h4, _⟩ := create_get h
    refine ⟨fs', h1, fun e n h2 h3 => h4 e n fun p hp hs ht => ?_⟩
    have hd := pkgDir_clean v (h.clean p hp hs)
    rcases ht with ht | ⟨ht, _⟩ | ht
    · exact h2 (by rw [show e = _ from (Prod.ext_iff.1 ht).1, hd]; exact List.suffix_append _ _)
    · exact h2 (by rw [show e = _ from (Prod.ext_iff.1 ht).1, hd]; exact List.suffix_append _ _)
    · have hv : v <:+ pkgDir v p.path := by rw [hd]; exact List.suffix_append _ _
      rcases List.suffix_or_suffix_of_suffix ht hv with hx | hx
      · exact h3 hx
      · rcases List.suffix_cons_iff.1 hx with hx | hx
        · exact h3 (hx ▸ List.suffix_refl _)
        · exact h2 hx
  · intro hn
    have : nodes.any (·.shouldVendor) = false := by
      rw [List.any_eq_false]
      intro p hp
      simp [hn p hp]
    simp only [create, this, Bool.false_eq_true, if_false]

/-- C138: after a run there is room for the packages of the next one, whatever is vendored then. -/
theorem C138_again {v : Dir} {fs : FS} {nodes : List Pkg} (h : Ready v fs nodes) :
    ∃ fs', create v fs nodes = .ok fs' ∧ ∀ nodes', Ready v fs nodes' → Ready v fs' nodes' := by
  obtain ⟨fs', h1, h2, _, _, h5⟩ := create_get h
  exact ⟨fs', h1, fun nodes' h' => ⟨h2, h'.distinct, h'.clean, fun p hp hs => h5 _ (h'.clean p hp hs) (h'.fits p hp hs)⟩⟩

theorem same_node : ∀ {nodes : List Pkg} {p q : Pkg}, (nodes.map (·.path)).Nodup → p ∈ nodes → q ∈ nodes → p.path = q.path → p = q
  | [], _, _, _, hp, _, _ => by cases hp
  | a :: l, p, q, hnd, hp, hq, e => by
    simp only [List.map_cons, List.nodup_cons, List.mem_map, not_exists, not_and] at hnd
    rcases List.mem_cons.1 hp with h1 | h1
    · rcases List.mem_cons.1 hq with h2 | h2
      · rw [h1, h2]
      · exact absurd (e.symm.trans (by rw [h1])) (hnd.1 q h2)
    · rcases List.mem_cons.1 hq with h2 | h2
      · exact absurd (e.trans (by rw [h2])) (hnd.1 p h1)
      · exact same_node hnd.2 h1 h2 e

/-- C138 is violated: of a package without a claw.mod the claw.mod of an older version stays. -/
theorem C138_stale_mod {v : Dir} {fs : FS} {nodes : List Pkg} (h : Ready v fs nodes) {p : Pkg} (hp : p ∈ nodes) (hs : p.shouldVendor = true)
    (hm : p.mod = none) {old : Bytes} (ho : get fs (pkgDir v p.path) (lit "claw.mod") = some (.file old)) :
    ∃ fs', create v fs nodes = .ok fs' ∧ get fs' (pkgDir v p.path) (lit "claw.mod") = some (.file old) := by
  obtain ⟨fs', h1, _, _, h4, _⟩ := create_get h
  refine ⟨fs', h1, ?_⟩
  rw [h4, ho]
  have hc := h.clean p hp hs
  intro q hq hsq ht
  have hcq := h.clean q hq hsq
  rcases ht with ht | ⟨ht, hm'⟩ | ht
  · exact clawName_ne_mod _ (Prod.ext_iff.1 ht).2.symm
  · have e := pkgDir_inj hc hcq (Prod.ext_iff.1 ht).1
    have : p = q := same_node h.distinct hp hq e
    rw [this] at hm
    exact hm' hm
  · exact not_below_mod hc hcq ht

/-- C138 is violated: a package that is no longer used stays vendored. -/
theorem C138_stale_package {v : Dir} {fs : FS} {nodes : List Pkg} (h : Ready v fs nodes) {q : Pkg} (hq : Clean q.path) (hh : Has v fs q)
    (hn : ∀ p ∈ nodes, p.path ≠ q.path) :
    ∃ fs', create v fs nodes = .ok fs' ∧ get fs' (pkgDir v q.path) (clawName q.path) = some (.file q.content) ∧ isVendored v fs' q.path = true := by
  obtain ⟨fs', h1, _, h3, h4, _⟩ := create_get h
  have hg : get fs' (pkgDir v q.path) (clawName q.path) = some (.file q.content) := by
    rw [h4, hh.schema]
    intro p hp hs ht
    have hc := h.clean p hp hs
    have hd : pkgDir v q.path ≠ pkgDir v p.path := fun e => hn p hp (pkgDir_inj hq hc e).symm
    rcases ht with ht | ⟨ht, _⟩ | ht
    · exact hd (Prod.ext_iff.1 ht).1
    · exact hd (Prod.ext_iff.1 ht).1
    · exact not_below_claw hq hc (clawName_suffix _) ht
  have hd : ∀ n e, n :: e <:+ pkgDir v q.path → get fs' e n = some .dir := by
    intro n e hs
    by_cases ht : ∃ p ∈ nodes, p.shouldVendor = true ∧ Touches v p e n
    · obtain ⟨p, hp, hsp, ht⟩ := ht
      have hc := h.clean p hp hsp
      rcases ht with ht | ⟨ht, _⟩ | ht
      · simp only [Prod.mk.injEq] at ht
        obtain ⟨rfl, rfl⟩ := ht
        exact absurd hs (not_below_claw hc hq (clawName_suffix _))
      · simp only [Prod.mk.injEq] at ht
        obtain ⟨rfl, rfl⟩ := ht
        exact absurd hs (not_below_mod hc hq)
      · exact (h3 p hp hsp).dirs n e ht
    · rw [h4 e n (fun p hp hsp q => ht ⟨p, hp, hsp, q⟩)]; exact hh.dirs n e hs
  refine ⟨fs', h1, hg, ?_⟩
  have hid : isDir fs' (pkgDir v q.path) = true := by
    cases e : pkgDir v q.path with
    | nil => rfl
    | cons n d => simp [isDir, hd n d (by rw [e]; exact List.suffix_refl _)]
  simp only [isVendored, readDir, hid, if_true, List.any_eq_true]
  exact ⟨clawName q.path, mem_names.2 (by rw [hg]; simp), clawName_suffix _⟩

/-! ### Names that end in `.claw` -/

theorem mkdirAll_keeps : ∀ {d : Dir} {fs fs' : FS}, mkdirAll fs d = .ok fs' → (∀ e n, get fs e n ≠ none → get fs' e n ≠ none) ∧
    ∀ n e, n :: e <:+ d → get fs' e n ≠ none
  | [], fs, fs', h => by cases h; exact ⟨fun _ _ h => h, fun _ _ h => by simp at h⟩
  | m :: d, fs, fs', h => by
    simp only [mkdirAll, Out.bind_eq_ok] at h
    obtain ⟨f1, h1, h2⟩ := h
    obtain ⟨k1, k2⟩ := mkdirAll_keeps h1
    split at h2
    · cases h2
      have kp : ∀ e n, get f1 e n ≠ none → get (put f1 d m .dir) e n ≠ none := by
        intro e n hg
        rw [get_put]
        split
        · simp
        · exact hg
      refine ⟨fun e n hg => kp e n (k1 e n hg), fun n e hs => ?_⟩
      rcases suffix_cons_iff'.1 hs with hs | hs
      · simp only [Prod.mk.injEq] at hs
        rw [hs.1, hs.2, get_put_same]; simp
      · exact kp e n (k2 n e hs)
    · cases h2
      rename_i hg
      refine ⟨k1, fun n e hs => ?_⟩
      rcases suffix_cons_iff'.1 hs with hs | hs
      · simp only [Prod.mk.injEq] at hs
        rw [hs.1, hs.2, hg]; simp
      · exact k2 n e hs
    · cases h2

theorem writeFile_keeps {d : Dir} {fs fs' : FS} {m : Str} {t : Bytes} (h : writeFile fs d m t = .ok fs') :
    (∀ e n, get fs e n ≠ none → get fs' e n ≠ none) ∧ get fs' d m ≠ none := by
  unfold writeFile at h
  split at h
  · cases h
  · cases h
    refine ⟨fun e n hg => ?_, by rw [get_put_same]; simp⟩
    rw [get_put]
    split
    · simp
    · exact hg

theorem package_keeps {v : Dir} {fs fs' : FS} {p : Pkg} (h : vendorPackage v fs p = .ok fs') :
    (∀ e n, get fs e n ≠ none → get fs' e n ≠ none) ∧ get fs' (pkgDir v p.path) (clawName p.path) ≠ none ∧
      ∀ n e, n :: e <:+ pkgDir v p.path → get fs' e n ≠ none := by
  simp only [vendorPackage, Out.bind_eq_ok] at h
  obtain ⟨f1, h1, f2, h2, h3⟩ := h
  obtain ⟨a1, a2⟩ := mkdirAll_keeps h1
  obtain ⟨b1, b2⟩ := writeFile_keeps h2
  have hk : ∀ e n, get f2 e n ≠ none → get fs' e n ≠ none := by
    split at h3
    · cases h3; exact fun _ _ h => h
    · exact (writeFile_keeps h3).1
  exact ⟨fun e n hg => hk e n (b1 e n (a1 e n hg)), hk _ _ b2, fun n e hs => hk e n (b1 e n (a2 n e hs))⟩

theorem all_keeps {v : Dir} : ∀ {ps : List Pkg} {fs fs' : FS}, vendorAll v fs ps = .ok fs' → (∀ e n, get fs e n ≠ none → get fs' e n ≠ none) ∧
    ∀ p ∈ ps, get fs' (pkgDir v p.path) (clawName p.path) ≠ none ∧ ∀ n e, n :: e <:+ pkgDir v p.path → get fs' e n ≠ none
  | [], fs, fs', h => by cases h; exact ⟨fun _ _ h => h, by simp⟩
  | p :: ps, fs, fs', h => by
    simp only [vendorAll, Out.bind_eq_ok] at h
    obtain ⟨f1, h1, h2⟩ := h
    obtain ⟨a1, a2, a3⟩ := package_keeps h1
    obtain ⟨b1, b2⟩ := all_keeps h2
    refine ⟨fun e n hg => b1 e n (a1 e n hg), fun q hq => ?_⟩
    rcases List.mem_cons.1 hq with rfl | hq
    · exact ⟨b1 _ _ a2, fun n e hs => b1 e n (a3 n e hs)⟩
    · exact b2 q hq

/-- C138 is violated: where a package has another one below it whose directory is called `x.claw`, and both are vendored, the compiler
does not find the schema of the first one. -/
theorem C138_claw_directory {v : Dir} {fs fs' : FS} (ho : Once fs) {nodes : List Pkg} {p q : Pkg} (hp : p ∈ nodes) (hps : p.shouldVendor = true)
    (hq : q ∈ nodes) (hqs : q.shouldVendor = true) {x : Str} (hx : hasSuffix (lit ".claw") x = true) (hb : pkgDir v q.path = x :: pkgDir v p.path)
    (hne : x ≠ clawName p.path) (h : create v fs nodes = .ok fs') : findClaw fs' (pkgDir v p.path) = .err := by
  have ho' := once_create ho h
  have ha : nodes.any (·.shouldVendor) = true := List.any_eq_true.2 ⟨p, hp, hps⟩
  simp only [create, ha, if_true, Out.bind_eq_ok] at h
  obtain ⟨f1, _, h2⟩ := h
  have hk := (all_keeps h2).2
  have g1 := (hk p (List.mem_filter.2 ⟨hp, hps⟩)).1
  have g2 := (hk q (List.mem_filter.2 ⟨hq, hqs⟩)).2 x (pkgDir v p.path) (by rw [hb]; exact List.suffix_refl _)
  have key : ∀ y, findClaw fs' (pkgDir v p.path) ≠ .ok y := by
    intro y hy
    rw [findClaw_iff ho'] at hy
    have e1 := ((hy.2 x hx).1).1 g2
    have e2 := ((hy.2 _ (clawName_suffix p.path)).1).1 g1
    exact hne (e1.trans e2.symm)
  unfold findClaw at key ⊢
  unfold readDir at key ⊢
  split
  · rename_i hd
    simp only [hd, if_true, Out.ok_bind] at key ⊢
    split
    · rename_i y hy
      exact absurd (by rw [hy]) (key y)
    · rfl
  · rfl

/-- C138 is violated: the version of a vendored package is never known. -/
theorem C138_version (v : Dir) (fs : FS) (pkg ver : Str) (h : vendoredVersion v fs pkg = .ok ver) : ver = [] := by
  unfold vendoredVersion at h
  split at h
  · cases h; rfl
  · cases h

/-! ### Names of files, and paths with `..` -/

theorem splitBy_cons_slash (q : Str) : splitBy 47 (47 :: q) = [] :: splitBy 47 q := by
  rw [splitBy]
  cases h : splitBy 47 q with
  | nil => exact absurd h (splitBy_ne q)
  | cons a l => simp

theorem splitBy_elem : ∀ (x q : Str), 47 ∉ x → splitBy 47 (x ++ 47 :: q) = x :: splitBy 47 q
  | [], q, _ => splitBy_cons_slash q
  | c :: x, q, h => by
    simp only [List.mem_cons, not_or] at h
    have hc : c ≠ 47 := fun e => h.1 e.symm
    rw [List.cons_append, splitBy, splitBy_elem x q h.2]
    simp [hc]

theorem splitBy_plain : ∀ (x : Str), 47 ∉ x → splitBy 47 x = [x]
  | [], _ => rfl
  | c :: x, h => by
    simp only [List.mem_cons, not_or] at h
    have hc : c ≠ 47 := fun e => h.1 e.symm
    rw [splitBy, splitBy_plain x h.2]
    simp [hc]

theorem clawName_below (x q : Str) (h : 47 ∉ x) : clawName (x ++ 47 :: q) = clawName q := by
  unfold clawName
  rw [splitBy_elem x q h]
  cases hq : splitBy 47 q with
  | nil => exact absurd hq (splitBy_ne q)
  | cons a l => rfl

/-- C138: the schema of a package is called after the last element of its path, however many come before it. -/
theorem C138_file_name (above : List Str) (name : Str) (ha : ∀ x ∈ above, 47 ∉ x) (hn : 47 ∉ name) :
    clawName (above.foldr (fun x q => x ++ 47 :: q) name) = name ++ lit ".claw" := by
  induction above with
  | nil => simp [clawName, splitBy_plain name hn]
  | cons x l ih =>
    rw [List.foldr_cons, clawName_below _ _ (ha x (by simp))]
    exact ih fun y hy => ha y (by simp [hy])

/-- C138 is violated: the path of a package may lead out of the vendor directory, and what was fetched for it is then written there. -/
theorem C138_escapes {m : Str} {d : Dir} {fs : FS} {p : Pkg} {q : Str} (hp : p.path = lit ".." ++ 47 :: q) (hq : Clean q) (hs : p.shouldVendor = true)
    (hr : Room fs (m :: d)) (hf : Fits (m :: d) fs p.path) :
    ∃ fs', create (m :: d) fs [p] = .ok fs' ∧ get fs' ((splitBy 47 q).reverse ++ d) (clawName q) = some (.file p.content) := by
  have hd : pkgDir (m :: d) p.path = (splitBy 47 q).reverse ++ d := by
    rw [hp, pkgDir, splitBy_elem _ _ (by decide), down, if_neg (by decide), if_pos rfl]
    exact down_names d hq.names
  have hn : clawName p.path = clawName q := by rw [hp]; exact clawName_below _ _ (by decide)
  obtain ⟨f1, h1, h2⟩ := mkdirAll_get hr
  have nv : ∀ n, ¬ n :: pkgDir (m :: d) p.path <:+ m :: d := fun n hs => by
    have h3 := hs.length_le
    have h4 := List.length_pos_iff.2 (splitBy_ne q)
    rw [hd] at h3
    simp at h3
    omega
  have hf1 : Fits (m :: d) f1 p.path := by
    constructor
    · intro n e hs
      rw [h2]
      split
      · exact Or.inr rfl
      · exact hf.room n e hs
    · rw [h2, if_neg (nv _)]; exact hf.schema
    · rw [h2, if_neg (nv _)]; exact hf.mod
    · intro n hn hg
      rw [h2, if_neg (nv _)] at hg
      exact hf.only n hn hg
  obtain ⟨f2, k1, k2, _⟩ := step hf1
  refine ⟨f2, by simp [create, hs, h1, vendorAll, k1], ?_⟩
  rw [← hd, ← hn]
  exact k2.schema

/-! ### Cases -/

def exV : Dir := [lit "vendor", lit "src"]

def exA : Pkg := ⟨lit "host/o/cars", lit "package cars", some (lit "module host/o/cars"), true⟩

def exB : Pkg := ⟨lit "host/o/cars/parts", lit "package parts", none, true⟩

def exC : Pkg := ⟨lit "me/main", lit "package main", none, false⟩

theorem exA_clean : Clean exA.path := ⟨by unfold Names; decide, by decide, by decide⟩

theorem exB_clean : Clean exB.path := ⟨by unfold Names; decide, by decide, by decide⟩

/-- In an empty file system everything fits. -/
theorem fits_empty (v : Dir) (q : Str) : Fits v [] q := ⟨fun _ _ _ => Or.inl rfl, by simp [get], by simp [get], fun _ _ h => absurd rfl h⟩

theorem ex_ready : Ready exV [] [exA, exB, exC] := by
  refine ⟨by simp [Once], by decide, ?_, fun p _ _ => fits_empty _ _⟩
  intro p hp hs
  simp only [List.mem_cons, List.not_mem_nil, or_false] at hp
  rcases hp with rfl | rfl | rfl
  · exact exA_clean
  · exact exB_clean
  · cases hs

example : ∃ fs', create exV [] [exA, exB, exC] = .ok fs' ∧ findClaw fs' (pkgDir exV exB.path) = .ok (lit "parts.claw") ∧
    isVendored exV fs' (lit "me/main") = false := ⟨_, rfl, by decide +kernel, by decide +kernel⟩

/-- A second run, with a new version of the package that has no claw.mod. -/
example : ∃ fs', create exV [] [exA, exB, exC] = .ok fs' ∧ Ready exV fs' [{ exA with mod := none }] ∧
    get fs' (pkgDir exV exA.path) (lit "claw.mod") = some (.file (lit "module host/o/cars")) := by
  obtain ⟨fs', h1, h2⟩ := C138_again ex_ready
  refine ⟨fs', h1, h2 _ ⟨by simp [Once], by simp, ?_, fun p _ _ => fits_empty _ _⟩, ?_⟩
  · intro p hp _
    simp only [List.mem_cons, List.not_mem_nil, or_false] at hp
    subst hp
    exact exA_clean
  · obtain ⟨f2, k1, k2⟩ := C138_vendored_partial ex_ready
    rw [h1] at k1
    cases k1
    exact (k2 exA (by simp) rfl).2.2 _ rfl

example : pkgDir exV (lit "host/o/cars/x.claw") = lit "x.claw" :: pkgDir exV exA.path ∧
    findClaw ((create exV [] [exA, { exB with path := lit "host/o/cars/x.claw" }]).casesOn id [] []) (pkgDir exV exA.path) = .err := by decide +kernel

/-- Beside the vendor directory, not in it. -/
example : ∃ fs', create exV [] [{ exB with path := lit "../o/cars" }] = .ok fs' ∧
    get fs' [lit "cars", lit "o", lit "src"] (lit "cars.claw") = some (.file (lit "package parts")) ∧ readDir fs' exV = .ok [] :=
  ⟨_, rfl, by decide +kernel, by decide +kernel⟩

end Claw.VendorDir
