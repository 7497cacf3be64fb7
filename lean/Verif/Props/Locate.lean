import Verif.Lemmas.VendorRead
import Verif.Lemmas.TextQuoted
import Verif.Lemmas.GoStr
import Verif.Props.ModWrite

/-!
# Reading imports, where packages are and which version is taken (C93–C95)
-/

namespace Claw.Vendor

open Claw.Graph
open Claw.Idl (Out atoi)
open Claw.Text (trimSpace trimPrefix Solid)

/-! ### C93: reading imports -/

section

variable {file : Str → Option (List Str)} {top : Str} {deps : List Str}

theorem reach_top (hf : file top = some deps) {x : Str} : Reach (edgesOf file) top x ↔ x = top ∨ ∃ d ∈ deps, Reach (edgesOf file) d x := by
  have he : edgesOf file top = deps := by simp [edgesOf, hf]
  constructor
  · intro h
    rcases h.cases_head with rfl | h
    · exact .inl rfl
    · rw [he] at h
      exact .inr h
  · rintro (rfl | ⟨d, hd, h⟩)
    · exact .refl
    · exact h.head (by rw [he]; exact hd)

/-- C93: when a file is read, all packages that it reaches are read, and no others; all of them can be read and none imports itself,
directly or through others. -/
theorem C93_read (hf : file top = some deps) {n : Nat} {got : List Str} (h : readTop (read file n) top deps = .ok got) :
    (∀ x, x ∈ got ↔ Reach (edgesOf file) top x) ∧
    ∀ x, Reach (edgesOf file) top x → (file x).isSome = true ∧ ¬ Cyclic (edgesOf file) x := by
  rw [readTop, Out.bind_eq_ok] at h
  obtain ⟨g, hw, h⟩ := h
  cases h
  have he : edgesOf file top = deps := by simp [edgesOf, hf]
  have hk := walk_ok hw (fun done x => (∀ d ∈ done, (∀ y, Reach (edgesOf file) d y → y ∈ x ∧ (file y).isSome = true) ∧
      Acc (fun d p => d ∈ edgesOf file p) d) ∧ ∀ y ∈ x, ∃ d ∈ deps, Reach (edgesOf file) d y) ⟨by simp, by simp⟩ (by
    rintro d hd done x1 x2 ⟨m, r⟩ hx
    have hr := read_ok n [top] d x1 x2 hx
    refine ⟨?_, ?_⟩
    · intro q hq
      rcases List.mem_append.1 hq with hq | hq
      · exact ⟨fun y hy => ⟨hr.more y ((m q hq).1 y hy).1, ((m q hq).1 y hy).2⟩, (m q hq).2⟩
      · simp only [List.mem_singleton] at hq
        subst hq
        exact ⟨fun y hy => ⟨(hr.mem y hy).1, hr.readable y hy⟩, hr.acc⟩
    · intro y hy
      rcases hr.reach y hy with hy | hy
      · exact r y hy
      · exact ⟨d, hd, hy⟩)
  obtain ⟨m, r⟩ := hk
  have hacc : Acc (fun d p => d ∈ edgesOf file p) top := ⟨top, fun d hd => (m d (by rw [← he]; exact hd)).2⟩
  refine ⟨?_, ?_⟩
  · intro x
    rw [reach_top hf, List.mem_append, List.mem_singleton]
    constructor
    · rintro (hx | hx)
      · exact .inr (r x hx)
      · exact .inl hx
    · rintro (hx | ⟨d, hd, hx⟩)
      · exact .inr hx
      · exact .inl ((m d hd).1 x hx).1
  · intro x hx
    refine ⟨?_, acyclic_of_acc hacc x hx⟩
    rcases (reach_top hf).1 hx with rfl | ⟨d, hd, hx⟩
    · simp [hf]
    · exact ((m d hd).1 x hx).2

/-- C93: reading ends, and fails exactly if a package that is reached cannot be read or imports itself. -/
theorem C93_read_fails_iff (hf : file top = some deps) {all : List Str} (hall : ∀ p ∈ all, ∀ d ∈ edgesOf file p, d ∈ all)
    (htop : top ∈ all) {n : Nat} (hn : all.length ≤ n) :
    (readTop (read file n) top deps = .err ↔ ∃ q, Reach (edgesOf file) top q ∧ (Cyclic (edgesOf file) q ∨ file q = none)) ∧
    readTop (read file n) top deps ≠ .panic := by
  have he : edgesOf file top = deps := by simp [edgesOf, hf]
  have hnp : readTop (read file n) top deps ≠ .panic := by
    intro h
    have hw : walk (read file n [top]) deps [] = .panic := by
      unfold readTop at h
      cases hx : walk (read file n [top]) deps [] with
      | ok s => rw [hx] at h; cases h
      | err => rw [hx] at h; cases h
      | panic => rfl
    obtain ⟨d, hd, s, -, h1⟩ := walk_panic hw (fun _ => True) trivial (fun _ _ _ _ _ _ => trivial)
    refine read_depth hall n [top] d s (by simp) (by simpa using htop) (hall top htop d (by rw [he]; exact hd)) (by simp; omega) h1
  refine ⟨⟨?_, ?_⟩, hnp⟩
  · intro h
    have hw : walk (read file n [top]) deps [] = .err := by
      unfold readTop at h
      cases hx : walk (read file n [top]) deps [] with
      | ok s => rw [hx] at h; cases h
      | err => rfl
      | panic => rw [hx] at h; cases h
    obtain ⟨d, hd, s, -, h1⟩ := walk_err hw (fun _ => True) trivial (fun _ _ _ _ _ _ => trivial)
    rw [← he] at hd
    obtain ⟨q, hq, hc⟩ := read_err n [top] d s (by
      intro v hv
      simp only [List.mem_singleton] at hv
      subst hv
      exact ⟨d, hd, .refl⟩) h1
    exact ⟨q, hq.head hd, hc⟩
  · rintro ⟨q, hr, hc⟩
    cases h : readTop (read file n) top deps with
    | err => rfl
    | panic => exact absurd h hnp
    | ok got =>
      obtain ⟨h1, h2⟩ := (C93_read hf h).2 q hr
      rcases hc with hc | hc
      · exact absurd hc h2
      · rw [hc] at h1; cases h1

/-- C93 for vendored packages: those that are reached are read, and no others, and the file to be compiled is not imported. -/
theorem C93_vendored (hf : file top = some deps) {n : Nat} {got : List Str} (h : readTop (readVendored file n) top deps = .ok got) :
    got.Nodup ∧ (∀ x, x ∈ got ↔ Reach (edgesOf file) top x) ∧ (∀ x ∈ got, (file x).isSome = true) ∧ ¬ Cyclic (edgesOf file) top := by
  rw [readTop, Out.bind_eq_ok] at h
  obtain ⟨g, hw, h⟩ := h
  cases h
  have he : edgesOf file top = deps := by simp [edgesOf, hf]
  have hk := walk_ok hw (fun done x => VRead file top [] x ∧ (∀ d ∈ done, d ∈ x) ∧ ∀ y ∈ x, ∃ d ∈ deps, Reach (edgesOf file) d y)
    ⟨⟨by simp, by simp, by simp, by simp, by simp⟩, by simp, by simp⟩ (by
      rintro d hd done x1 x2 ⟨g1, m, r⟩ hx
      obtain ⟨g2, m2, k2, r2⟩ := vread_ok n [] d x1 x2 g1 hx
      refine ⟨g2, ?_, ?_⟩
      · intro y hy
        rcases List.mem_append.1 hy with hy | hy
        · exact k2 y (m y hy)
        · simp only [List.mem_singleton] at hy
          subst hy
          exact m2
      · intro y hy
        rcases r2 y hy with hy | hy
        · exact r y hy
        · exact ⟨d, hd, hy⟩)
  obtain ⟨g1, m, r⟩ := hk
  have hcl : ∀ d ∈ deps, ∀ x, Reach (edgesOf file) d x → x ∈ g := by
    intro d hd x hx
    induction hx with
    | refl => exact m d hd
    | step _ hm ih => exact g1.closed _ ih (by simp) _ hm
  refine ⟨?_, ?_, ?_, ?_⟩
  · rw [List.nodup_append]
    refine ⟨g1.nodup, by simp, ?_⟩
    intro a ha b hb
    simp only [List.mem_singleton] at hb
    subst hb
    rintro rfl
    exact g1.notTop ha
  · intro x
    rw [reach_top hf, List.mem_append, List.mem_singleton]
    constructor
    · rintro (hx | hx)
      · exact .inr (r x hx)
      · exact .inl hx
    · rintro (hx | ⟨d, hd, hx⟩)
      · exact .inr hx
      · exact .inl (hcl d hd x hx)
  · intro x hx
    rcases List.mem_append.1 hx with hx | hx
    · exact g1.readable x hx
    · simp only [List.mem_singleton] at hx
      subst hx
      simp [hf]
  · rintro ⟨d, hd, hr⟩
    rw [he] at hd
    exact g1.notTop (hcl d hd top hr)

/-- C93 is violated for vendored packages: reading fails only if a package cannot be read or imports the file to be compiled; that
packages import each other in a cycle is accepted. -/
theorem C93_vendored_cycles_accepted (hf : file top = some deps) {all : List Str}
    (hall : ∀ p ∈ all, ∀ d ∈ edgesOf file p, d ∈ all) (htop : top ∈ all) {n : Nat} (hn : all.length < n)
    (hread : ∀ q, Reach (edgesOf file) top q → (file q).isSome = true) (hcyc : ¬ Cyclic (edgesOf file) top) :
    ∃ got, readTop (readVendored file n) top deps = .ok got := by
  have he : edgesOf file top = deps := by simp [edgesOf, hf]
  have h0 : VRead file top [] [] := ⟨by simp, by simp, by simp, by simp, by simp⟩
  have hkeep : ∀ d ∈ deps, ∀ x1 x2, VRead file top [] x1 → readVendored file n [top] d x1 = .ok x2 → VRead file top [] x2 :=
    fun d _ x1 x2 g1 hx => (vread_ok n [] d x1 x2 g1 hx).1
  rw [readTop]
  cases hx : walk (readVendored file n [top]) deps [] with
  | ok g => exact ⟨g ++ [top], rfl⟩
  | panic =>
    obtain ⟨d, hd, s, g1, h1⟩ := walk_panic hx (fun x => VRead file top [] x) h0 hkeep
    exact absurd h1 (vread_depth hall n [] d s g1 (by simp) (by simp) (hall top htop d (by rw [he]; exact hd)) (by simpa using hn))
  | err =>
    obtain ⟨d, hd, s, g1, h1⟩ := walk_err hx (fun x => VRead file top [] x) h0 hkeep
    rw [← he] at hd
    obtain ⟨q, hq, hc⟩ := vread_err n [] d s g1 h1
    rcases hc with rfl | hc
    · exact absurd ⟨d, hd, hq⟩ hcyc
    · have := hread q (hq.head hd)
      rw [hc] at this
      cases this

end

/-- `r` imports `a`, `a` and `b` import each other. -/
def loop (p : Str) : Option (List Str) :=
  if p = lit "r" then some [lit "a"] else if p = lit "a" then some [lit "b"] else if p = lit "b" then some [lit "a"] else none

example : readTop (read loop 9) (lit "r") [lit "a"] = .err := by decide +kernel
example : readTop (readVendored loop 9) (lit "r") [lit "a"] = .ok [lit "a", lit "b", lit "r"] := by decide +kernel

/-! ### C94: where packages are -/

theorem trimPrefix_append (p s : Str) : trimPrefix p (p ++ s) = s := by
  simp [trimPrefix, Str.hasPrefix]

theorem trimPrefix_not {p s : Str} (h : ¬ p <+: s) : trimPrefix p s = s := by
  rw [trimPrefix, if_neg]
  rw [Str.hasPrefix, List.isPrefixOf_iff_prefix]
  exact h

theorem split_not {sep s : Str} (h : Str.contains s sep = false) : splitStr sep s = [s] := by
  rw [splitStr]
  split
  · rfl
  · rename_i i hi
    rw [Str.contains, hi] at h
    cases h

theorem split_prefix {sep s : Str} (hs : sep ≠ []) (h : Str.contains s sep = false) : splitStr sep (sep ++ s) = [[], s] := by
  have hi : Str.index sep (sep ++ s) = some 0 := by
    cases sep with
    | nil => exact absurd rfl hs
    | cons a b =>
      rw [List.cons_append, Str.index, if_pos]
      rw [List.isPrefixOf_iff_prefix]
      exact ⟨s, by simp⟩
  rw [splitStr]
  split
  · rename_i h2
    rw [hi] at h2
    cases h2
  · rename_i i h2
    rw [hi] at h2
    cases h2
    rw [dif_neg hs]
    simp [split_not h]

/-- C94: a package of the repository keeps its import path and is looked for in its directory of the repository, by all four ways
that clawc takes to find it. -/
theorem C94_inside_partial {repo rel : Str} (hr : repo ≠ []) (dir : Str) (hc : Str.contains (lit "/" ++ rel) repo = false) :
    transformImportPath repo dir (repo ++ lit "/" ++ rel) = repo ++ lit "/" ++ rel ∧
    isLocalDependency repo (repo ++ lit "/" ++ rel) = true ∧ localRel repo (repo ++ lit "/" ++ rel) = some rel ∧
    inRepo repo (repo ++ lit "/" ++ rel) = true ∧ absRel repo (repo ++ lit "/" ++ rel) = rel ∧
    readRel repo (repo ++ lit "/" ++ rel) = rel := by
  have hpre : ∀ x, Str.hasPrefix repo (repo ++ x) = true := fun x => by simp [Str.hasPrefix]
  have hsp : splitStr repo (repo ++ lit "/" ++ rel) = [[], lit "/" ++ rel] := by
    rw [List.append_assoc]
    exact split_prefix hr hc
  refine ⟨?_, ?_, ?_, ?_, ?_, ?_⟩
  · rw [transformImportPath]
    split
    · rfl
    · rw [List.append_assoc, if_pos (hpre _)]
  · rw [isLocalDependency, List.append_assoc, hpre]
  · rw [localRel, if_pos (by rw [List.append_assoc, hpre]), trimPrefix_append]
  · rw [inRepo, List.append_assoc, hpre]
  · rw [absRel, hsp]
    exact trimPrefix_append (lit "/") rel
  · rw [readRel, hsp]
    exact trimPrefix_append (lit "/") rel

example : transformImportPath (lit "github.com/me/repo") (lit "claw_vendor") (lit "github.com/me/repo/a/b") = lit "github.com/me/repo/a/b" ∧
    absRel (lit "github.com/me/repo") (lit "github.com/me/repo/a/b") = lit "a/b" := by
  have := C94_inside_partial (repo := lit "github.com/me/repo") (rel := lit "a/b") (by decide) (lit "claw_vendor") (by decide +kernel)
  exact ⟨this.1, this.2.2.2.2.1⟩

/-- C94: a package whose path does not begin with that of the repository is imported from the vendor directory, and no two of them from
the same place. -/
theorem C94_outside_partial {repo dir : Str} (hr : repo ≠ []) (hd : dir ≠ []) {p : Str} (hp : Str.hasPrefix repo p = false) :
    transformImportPath repo dir p = repo ++ lit "/" ++ dir ++ lit "/" ++ p ∧ isLocalDependency repo p = false ∧
    ∀ q, Str.hasPrefix repo q = false → transformImportPath repo dir q = transformImportPath repo dir p → q = p := by
  have ht : ∀ q, Str.hasPrefix repo q = false → transformImportPath repo dir q = repo ++ lit "/" ++ dir ++ lit "/" ++ q := by
    intro q hq
    rw [transformImportPath, if_neg (by simp [hr, hd]), if_neg (by simp [hq])]
  refine ⟨ht p hp, hp, ?_⟩
  intro q hq h
  rw [ht p hp, ht q hq] at h
  exact List.append_cancel_left h

example : transformImportPath (lit "github.com/me/repo") (lit "claw_vendor") (lit "github.com/you/x") =
    lit "github.com/me/repo/claw_vendor/github.com/you/x" := (C94_outside_partial (by decide) (by decide) (by decide +kernel)).1

/-- C94 is violated: a package of another repository whose path begins alike counts as one of the repository. It is not imported from
the vendor directory, and is looked for in a directory of this repository. -/
theorem C94_alike_confused {repo : Str} (hr : repo ≠ []) (dir : Str) {c : UInt8} (hc : c ≠ 47) (rest : Str)
    (ho : Str.contains (c :: rest) repo = false) :
    Mod.moduleInRepo (repo ++ c :: rest) repo = false ∧
    transformImportPath repo dir (repo ++ c :: rest) = repo ++ c :: rest ∧ isLocalDependency repo (repo ++ c :: rest) = true ∧
    localRel repo (repo ++ c :: rest) = some (repo ++ c :: rest) ∧ inRepo repo (repo ++ c :: rest) = true ∧
    absRel repo (repo ++ c :: rest) = c :: rest ∧ readRel repo (repo ++ c :: rest) = c :: rest := by
  have hpre : ∀ x, Str.hasPrefix repo (repo ++ x) = true := fun x => by simp [Str.hasPrefix]
  have hsl : ¬ (lit "/") <+: c :: rest := by
    rintro ⟨t, ht⟩
    rw [show lit "/" = [47] from rfl] at ht
    simp only [List.singleton_append, List.cons.injEq] at ht
    exact hc ht.1.symm
  refine ⟨?_, ?_, hpre _, ?_, hpre _, ?_, ?_⟩
  · apply Bool.eq_false_iff.2
    intro h
    rcases (Mod.C87_in_repo_iff _ _).1 h with h | ⟨rel, h⟩
    · simp at h
    · rw [List.append_assoc, List.append_cancel_left_eq, show lit "/" = [47] from rfl] at h
      simp only [List.singleton_append, List.cons.injEq] at h
      exact hc h.1
  · rw [transformImportPath]
    split
    · rfl
    · rw [if_pos (hpre _)]
  · rw [localRel, if_pos (hpre _), trimPrefix_not]
    rintro ⟨t, ht⟩
    rw [List.append_assoc, List.append_cancel_left_eq] at ht
    exact hsl ⟨t, ht⟩
  · rw [absRel, split_prefix hr ho]
    exact trimPrefix_not hsl
  · rw [readRel, split_prefix hr ho]
    exact trimPrefix_not hsl

-- github.com/me/repository in the repository github.com/me/repo
example : isLocalDependency (lit "github.com/me/repo") (lit "github.com/me/repository/x") = true ∧
    absRel (lit "github.com/me/repo") (lit "github.com/me/repository/x") = lit "sitory/x" := by
  have := C94_alike_confused (repo := lit "github.com/me/repo") (by decide) [] (c := 115) (by decide) (lit "itory/x") (by decide +kernel)
  exact ⟨this.2.2.1, this.2.2.2.2.2.1⟩

/-! ### C95: versions -/

theorem splitBy_head {sep c : UInt8} (h : c ≠ sep) (s : Str) : ∃ a l, Mod.splitBy sep (c :: s) = (c :: a) :: l := by
  rw [Mod.splitBy]
  cases hs : Mod.splitBy sep s with
  | nil => exact ⟨[], [], rfl⟩
  | cons p ps =>
    simp only [if_neg h]
    exact ⟨p, ps, rfl⟩

theorem splitBy_ne {sep : UInt8} (s : Str) : Mod.splitBy sep s ≠ [] := by
  cases s with
  | nil => simp [Mod.splitBy]
  | cons c s =>
    rw [Mod.splitBy]
    split
    · simp
    · split <;> simp

/-- What versionFrom needs of the first part. -/
theorem versionFrom_bad {c : UInt8} {s a : Str} {l : List Str} (hs : Mod.splitBy 46 s = a :: l) (ha : atoi a = none) :
    Mod.versionFrom (c :: s) = .err := by
  rw [Mod.versionFrom]
  split
  · rename_i h
    rw [hs] at h
    simp only [List.cons.injEq] at h
    obtain ⟨rfl, -⟩ := h
    rw [ha]
    rfl
  · rfl

/-- C95 is violated: whatever version is asked for, no tag of the repository is taken (git names tags refs/tags/…). -/
theorem C95_tags_never (tags : List Str) (htags : ∀ t ∈ tags, ∃ x, t = lit "refs/tags/" ++ x) (version : Str) (name : Str) :
    versionCheckout tags version ≠ .ok (.tag name) := by
  rw [versionCheckout]
  split
  · simp
  · split
    · simp
    · simp
    · rename_i v hv
      split
      · rename_i hm
        obtain ⟨x, rfl⟩ := htags version hm
        exfalso
        have h1 : trimPrefix (lit "v") (lit "refs/tags/" ++ x) = lit "refs/tags/" ++ x :=
          trimPrefix_not (by rintro ⟨t, ht⟩; simp [show lit "v" = [118] from rfl, show lit "refs/tags/" = 114 :: lit "efs/tags/" from rfl] at ht)
        obtain ⟨a, l, hs⟩ := splitBy_head (sep := 46) (c := 101) (by decide) (lit "fs/tags/" ++ x)
        have h2 : Mod.versionFrom (lit "refs/tags/" ++ x) = .err := by
          refine versionFrom_bad (c := 114) (s := 101 :: (lit "fs/tags/" ++ x)) hs ?_
          simp [Idl.atoi, Idl.digits, Idl.digitsFrom]
        rw [gitVersion, h1, h2] at hv
        cases hv
      · simp

example : versionCheckout [lit "refs/tags/v12.0.1"] (lit "v12.0.1") = .err := by decide +kernel

/-- C95 is violated: a version with a major number of one digit is taken for a hash. -/
theorem C95_version_taken_for_hash (tags : List Str) (d : UInt8) (rest : Str) :
    versionCheckout tags (lit "v" ++ d :: 46 :: rest) = .ok (.hash (lit "v" ++ d :: 46 :: rest)) := by
  have h1 : gitVersion (lit "v" ++ d :: 46 :: rest) = .err := by
    rw [gitVersion, trimPrefix_append]
    have : ∃ l, Mod.splitBy 46 (46 :: rest) = [] :: l := by
      rw [Mod.splitBy]
      cases hr : Mod.splitBy 46 rest with
      | nil => exact absurd hr (splitBy_ne _)
      | cons p ps => exact ⟨p :: ps, by simp⟩
    obtain ⟨l, hl⟩ := this
    exact versionFrom_bad hl rfl
  rw [versionCheckout, if_neg (by simp [show lit "v" = [118] from rfl]), h1]

example : versionCheckout [lit "refs/tags/v1.2.3"] (lit "v1.2.3") = .ok (.hash (lit "v1.2.3")) :=
  C95_version_taken_for_hash _ 49 (lit "2.3")

theorem splitBy_none : ∀ {s : Str}, 46 ∉ s → Mod.splitBy 46 s = [s] := by
  intro s
  induction s with
  | nil => intro _; rfl
  | cons c s ih =>
    intro h
    simp only [List.mem_cons, not_or] at h
    rw [Mod.splitBy, ih h.2]
    simp [Ne.symm h.1]

/-- C95 where it holds: a hash is taken for a hash. -/
theorem C95_hash_partial (tags : List Str) {version : Str} (h1 : 46 ∉ version) (h2 : version ≠ []) (h3 : version ≠ lit "v") :
    versionCheckout tags version = .ok (.hash version) := by
  have key : ∀ {s : Str}, s ≠ [] → 46 ∉ s → Mod.versionFrom s = .err := by
    intro s hs hd
    cases s with
    | nil => exact absurd rfl hs
    | cons c s =>
      simp only [List.mem_cons, not_or] at hd
      rw [Mod.versionFrom]
      simp only [splitBy_none hd.2]
  have h4 : gitVersion version = .err := by
    rw [gitVersion]
    by_cases hp : lit "v" <+: version
    · obtain ⟨t, rfl⟩ := hp
      rw [trimPrefix_append]
      refine key ?_ (by simp only [List.mem_append, not_or] at h1; exact h1.2)
      rintro rfl
      exact h3 (by simp)
    · rw [trimPrefix_not hp]
      exact key h2 h1
  rw [versionCheckout, if_neg h2, h4]

/-- C95 is violated: the version `v` makes clawc panic. -/
theorem C95_v_panics (tags : List Str) : versionCheckout tags (lit "v") = .panic := by
  have : gitVersion (lit "v") = .panic := by decide
  rw [versionCheckout, if_neg (by decide), this]

theorem trimSpace_solid {s : Str} (h : Solid s) : trimSpace s = s := by
  obtain ⟨rs, rfl, hr⟩ := h
  have h3 : Text.chunks (Text.enc rs) = rs.map Text.ch := by
    have := Text.chunks_enc rs (fun r h => (hr r h).1) []
    rw [List.append_nil] at this
    rw [this]
    simp [Text.chunks, Text.chunksN]
  have hd : ∀ l : List Nat, (∀ r ∈ l, Text.isSpace r = false) → (l.map Text.ch).dropWhile (fun c => Text.isSpace c.1) = l.map Text.ch := by
    intro l hl
    cases l with
    | nil => rfl
    | cons a l =>
      rw [List.map_cons, List.dropWhile_cons_of_neg]
      simpa [Text.ch] using hl a (by simp)
  unfold trimSpace
  rw [h3, hd rs (fun r h => (hr r h).2), ← List.map_reverse, hd rs.reverse (fun r h => (hr r (by simpa using h)).2), List.map_reverse,
    List.reverse_reverse, Text.joined_ch]

theorem span_at {a : Str} (ha : 64 ∉ a) (b : Str) : (a ++ 64 :: b).takeWhile (fun c => c ≠ 64) = a ∧
    (a ++ 64 :: b).dropWhile (fun c => c ≠ 64) = 64 :: b := by
  have h : ∀ c ∈ a, (decide (c ≠ 64)) = true := by
    intro c hc
    simp only [ne_eq, decide_not, Bool.not_eq_eq_eq_not, Bool.not_true, decide_eq_false_iff_not]
    rintro rfl
    exact ha hc
  constructor
  · rw [List.takeWhile_append_of_pos h]
    simp
  · rw [List.dropWhile_append_of_pos h]
    simp

/-- C95: the package and the version of `package@version` are what stands before and after the sign. -/
theorem C95_spec_partial {pkg version : Str} (hp : Mod.Word pkg) (hat : 64 ∉ pkg) (hv : Solid version) :
    parseSpec (pkg ++ lit "@" ++ version) = some (pkg, version) ∧ parseSpec pkg = some (pkg, []) := by
  have hs : Solid (pkg ++ lit "@" ++ version) := Text.solid_append (Text.solid_append hp.1 (Text.solid_graphic (by decide))) hv
  have e : pkg ++ lit "@" ++ version = pkg ++ 64 :: version := by simp [show lit "@" = [64] from rfl]
  obtain ⟨t1, t2⟩ := span_at hat version
  have h : ∀ c ∈ pkg, (decide (c ≠ 64)) = true := by
    intro c hc
    simp only [ne_eq, decide_not, Bool.not_eq_eq_eq_not, Bool.not_true, decide_eq_false_iff_not]
    rintro rfl
    exact hat hc
  constructor
  · simp only [parseSpec]
    rw [trimSpace_solid hs, e, t1, t2, if_neg (by simp), trimSpace_solid hp.1, if_neg hp.2]
    simp [trimSpace_solid hv]
  · simp only [parseSpec]
    have t3 : pkg.takeWhile (fun c => c ≠ 64) = pkg := by
      have := List.takeWhile_append_of_pos (l₂ := []) h
      simpa using this
    have t4 : pkg.dropWhile (fun c => c ≠ 64) = [] := by
      have := List.dropWhile_append_of_pos (l₂ := []) h
      simpa using this
    rw [trimSpace_solid hp.1, if_neg hp.2, t3, t4, trimSpace_solid hp.1, if_neg hp.2]
    rfl

example : parseSpec (lit "github.com/a/b@v1.2.3") = some (lit "github.com/a/b", lit "v1.2.3") :=
  (C95_spec_partial (pkg := lit "github.com/a/b") (version := lit "v1.2.3") (Mod.word_lit (by decide) (by decide)) (by decide)
    (Text.solid_graphic (by decide))).1

end Claw.Vendor
