import Verif.Model.Compile
import Verif.Props.VendorDir
import Verif.Props.Locate

/-!
# Lemmas about compilation
-/

namespace Claw.VendorDir

open Claw.Idl (Out)
open Claw.Vendor (hasSuffix)
open Claw.Mod (splitBy)

theorem room_of_mkdirAll : ∀ {d : Dir} {fs fs' : FS}, mkdirAll fs d = .ok fs' → Room fs d
  | [], _, _, _ => by intro n e h; simp at h
  | m :: d, fs, fs', h => by
    simp only [mkdirAll, Out.bind_eq_ok] at h
    obtain ⟨f1, h1, h2⟩ := h
    have hr := room_of_mkdirAll h1
    obtain ⟨f1', h1', hg⟩ := mkdirAll_get hr
    rw [h1] at h1'
    cases h1'
    have hd : ¬ m :: d <:+ d := fun hs => by have := hs.length_le; simp at this; omega
    intro n e hs
    rcases suffix_cons_iff'.1 hs with hx | hx
    · simp only [Prod.mk.injEq] at hx
      rw [hx.1, hx.2]
      have : get f1 d m = get fs d m := by rw [hg, if_neg hd]
      rw [← this]
      cases h3 : get f1 d m with
      | none => exact .inl rfl
      | some x =>
        cases x with
        | dir => exact .inr rfl
        | file t => rw [h3] at h2; cases h2
    · exact hr n e hx

theorem writeFile_of_ok {fs fs' : FS} {d : Dir} {n : Str} {t : Bytes} (h : writeFile fs d n t = .ok fs') : fs' = put fs d n (.file t) := by
  unfold writeFile at h
  split at h
  · cases h
  · cases h; rfl

/-- What a package that was vendored leaves. -/
theorem step_ok {v : Dir} {fs fs' : FS} {p : Pkg} (h : vendorPackage v fs p = .ok fs') :
    Has v fs' p ∧ ∀ e n, ¬ Touches v p e n → get fs' e n = get fs e n := by
  simp only [vendorPackage, Out.bind_eq_ok] at h
  obtain ⟨f1, h1, f2, h2, h3⟩ := h
  obtain ⟨f1', h1', hg⟩ := mkdirAll_get (room_of_mkdirAll h1)
  rw [h1] at h1'
  cases h1'
  have h2 := writeFile_of_ok h2
  subst h2
  have nd : ∀ n, ¬ n :: pkgDir v p.path <:+ pkgDir v p.path := fun n hs => by have := hs.length_le; simp at this; omega
  have dn : ∀ {n e x}, n :: e <:+ pkgDir v p.path → (e, n) ≠ (pkgDir v p.path, x) := by
    intro n e x hs he
    simp only [Prod.mk.injEq] at he
    obtain ⟨rfl, rfl⟩ := he
    exact nd _ hs
  cases hm : p.mod with
  | none =>
    rw [hm] at h3
    cases h3
    refine ⟨⟨get_put_same _ _ _ _, ?_, ?_⟩, ?_⟩
    · intro m h; rw [hm] at h; cases h
    · intro n e hs
      rw [get_put_other _ _ (dn hs), hg, if_pos hs]
    · intro e n ht
      rw [get_put_other _ _ (fun q => ht (Or.inl q)), hg, if_neg (fun q => ht (Or.inr (Or.inr q)))]
  | some m =>
    rw [hm] at h3
    have h3 := writeFile_of_ok h3
    subst h3
    have hne : (pkgDir v p.path, clawName p.path) ≠ (pkgDir v p.path, lit "claw.mod") := fun h => clawName_ne_mod _ (Prod.ext_iff.1 h).2
    refine ⟨⟨?_, ?_, ?_⟩, ?_⟩
    · rw [get_put_other _ _ hne, get_put_same]
    · intro m' h; rw [hm] at h; cases h; rw [get_put_same]
    · intro n e hs
      rw [get_put_other _ _ (dn hs), get_put_other _ _ (dn hs), hg, if_pos hs]
    · intro e n ht
      rw [get_put_other _ _ (fun q => ht (Or.inr (Or.inl ⟨q, by simp [hm]⟩))), get_put_other _ _ (fun q => ht (Or.inl q)), hg,
        if_neg (fun q => ht (Or.inr (Or.inr q)))]

theorem all_ok {v : Dir} : ∀ {ps : List Pkg} {fs fs' : FS}, (∀ p ∈ ps, Clean p.path) → (ps.map (·.path)).Nodup →
    vendorAll v fs ps = .ok fs' → (∀ p ∈ ps, Has v fs' p) ∧ (∀ e n, (∀ p ∈ ps, ¬ Touches v p e n) → get fs' e n = get fs e n) ∧
      ∀ q, Clean q.path → q.path ∉ ps.map (·.path) → Has v fs q → Has v fs' q
  | [], fs, fs', _, _, h => by cases h; exact ⟨by simp, fun _ _ _ => rfl, fun _ _ _ h => h⟩
  | p :: ps, fs, fs', hc, hn, h => by
    simp only [vendorAll, Out.bind_eq_ok] at h
    obtain ⟨f1, h1, h2⟩ := h
    have hp := hc p (by simp)
    obtain ⟨k1, k2⟩ := step_ok h1
    simp only [List.map_cons, List.nodup_cons] at hn
    obtain ⟨i1, i2, i3⟩ := all_ok (fun q hq => hc q (by simp [hq])) hn.2 h2
    refine ⟨?_, ?_, ?_⟩
    · intro q hq
      rcases List.mem_cons.1 hq with rfl | hq
      · exact i3 q hp hn.1 k1
      · exact i1 q hq
    · intro e n ht
      rw [i2 e n (fun q hq => ht q (by simp [hq])), k2 e n (ht p (by simp))]
    · intro q hq hnm hh
      simp only [List.map_cons, List.mem_cons, not_or] at hnm
      exact i3 q hq hnm.2 (has_step hp hq hnm.1 hh k1 k2)

/-- What vendoring leaves, if it succeeds. -/
theorem create_ok {v : Dir} {fs fs' : FS} {nodes : List Pkg} (hc : ∀ p ∈ nodes, p.shouldVendor = true → Clean p.path)
    (hn : (nodes.map (·.path)).Nodup) (h : create v fs nodes = .ok fs') :
    (∀ p ∈ nodes, p.shouldVendor = true → Has v fs' p) ∧
    (∀ e n, ¬ n :: e <:+ v → (∀ p ∈ nodes, p.shouldVendor = true → ¬ Touches v p e n) → get fs' e n = get fs e n) ∧
    ∀ e n, n :: e <:+ v → get fs e n = some .dir → get fs' e n = some .dir := by
  unfold create at h
  have hf : ∀ p, p ∈ nodes.filter (·.shouldVendor) ↔ p ∈ nodes ∧ p.shouldVendor = true := fun p => List.mem_filter
  split at h
  · simp only [Out.bind_eq_ok] at h
    obtain ⟨f1, h1, h2⟩ := h
    obtain ⟨f1', h1', hg⟩ := mkdirAll_get (room_of_mkdirAll h1)
    rw [h1] at h1'
    cases h1'
    obtain ⟨i1, i2, _⟩ := all_ok (v := v) (fun p hp => hc p ((hf p).1 hp).1 ((hf p).1 hp).2)
      (hn.sublist (List.Sublist.map _ List.filter_sublist)) h2
    refine ⟨fun p hp hs => i1 p ((hf p).2 ⟨hp, hs⟩), fun e n hv ht => ?_, fun e n hv _ => ?_⟩
    · rw [i2 e n (fun p hp => ht p ((hf p).1 hp).1 ((hf p).1 hp).2), hg, if_neg hv]
    · by_cases ht : ∃ p ∈ nodes.filter (·.shouldVendor), Touches v p e n
      · obtain ⟨p, hp, ht⟩ := ht
        have hd := pkgDir_clean v (hc p ((hf p).1 hp).1 ((hf p).1 hp).2)
        have hlen := hv.length_le
        simp only [List.length_cons] at hlen
        have hlong : ¬ e = pkgDir v p.path := by
          intro he
          rw [he, hd, List.length_append] at hlen
          omega
        rcases ht with ht | ⟨ht, -⟩ | ht
        · exact absurd (Prod.ext_iff.1 ht).1 hlong
        · exact absurd (Prod.ext_iff.1 ht).1 hlong
        · exact (i1 p hp).dirs n e ht
      · rw [i2 e n (fun p hp q => ht ⟨p, hp, q⟩), hg, if_pos hv]
  · rename_i hx
    cases h
    refine ⟨fun p hp hs => absurd (List.any_eq_true.2 ⟨p, hp, hs⟩) hx, fun _ _ _ _ => rfl, fun _ _ _ h => h⟩

/-- What is not below the vendor directory nor on the way to it is not touched. -/
theorem not_touched {v : Dir} {p : Pkg} (hc : Clean p.path) {e : Dir} {n : Str} (h2 : ¬ v <:+ e) (h3 : ¬ n :: e <:+ v) : ¬ Touches v p e n := by
  intro ht
  have hd := pkgDir_clean v hc
  rcases ht with ht | ⟨ht, _⟩ | ht
  · exact h2 (by rw [show e = _ from (Prod.ext_iff.1 ht).1, hd]; exact List.suffix_append _ _)
  · exact h2 (by rw [show e = _ from (Prod.ext_iff.1 ht).1, hd]; exact List.suffix_append _ _)
  · have hv : v <:+ pkgDir v p.path := by rw [hd]; exact List.suffix_append _ _
    rcases List.suffix_or_suffix_of_suffix ht hv with hx | hx
    · exact h3 hx
    · rcases List.suffix_cons_iff.1 hx with hx | hx
      · exact h3 (hx ▸ List.suffix_refl _)
      · exact h2 hx

theorem isDir_eq {fs fs' : FS} {d : Dir} (h : ∀ n e, n :: e = d → get fs' e n = get fs e n) : isDir fs' d = isDir fs d := by
  cases d with
  | nil => rfl
  | cons n d => simp only [isDir, h n d rfl]

end Claw.VendorDir

namespace Claw.Compile

open Claw.Idl (Out Uni)
open Claw.Mod (Module splitBy)
open Claw.VendorDir
open Claw.Graph
open Claw.Vendor (World Graph hasSuffix inRepo absRel readRel localRel isLocalDependency applyReplace resolveVersion read readVendored readTop
  vendorDeps compileOrder splitStr joinStr importsOf edgesOf)

/-- A directory of plain names. -/
def Plain (d : Dir) : Prop := ∀ x ∈ d, x ≠ [] ∧ x ≠ lit "." ∧ x ≠ lit ".." ∧ 47 ∉ x

theorem splitBy_join : ∀ {l : List Str}, l ≠ [] → (∀ x ∈ l, 47 ∉ x) → splitBy 47 (joinStr (lit "/") l) = l
  | [], h, _ => absurd rfl h
  | [x], _, h => splitBy_plain x (h x (by simp))
  | x :: y :: l, _, h => by
    have ih := splitBy_join (l := y :: l) (by simp) (fun z hz => h z (by simp [hz]))
    rw [joinStr]
    · rw [show x ++ lit "/" ++ joinStr (lit "/") (y :: l) = x ++ 47 :: joinStr (lit "/") (y :: l) by
        rw [List.append_assoc]; rfl, splitBy_elem x _ (h x (by simp)), ih]
    all_goals simp

/-- The path of a directory leads to it. -/
theorem locate_pathOf (b : Box) {d : Dir} (h : Plain d) : b.locate (pathOf d) = d := by
  have hp : Str.hasPrefix (lit "/") (pathOf d) = true := by simp [Str.hasPrefix, pathOf]
  rw [Box.locate, if_pos hp, pathOf, show lit "/" ++ joinStr (lit "/") d.reverse = 47 :: joinStr (lit "/") d.reverse from rfl,
    splitBy_cons_slash, down, if_pos (.inl rfl)]
  cases hd : d with
  | nil => rfl
  | cons x l =>
    rw [← hd]
    rw [splitBy_join (by simp [hd]) (fun y hy => (h y (by simpa using hy)).2.2.2), down_names]
    · simp
    · intro y hy
      have := h y (by simpa using hy)
      exact ⟨this.1, this.2.1, this.2.2.1⟩

theorem contains_nil {s : Str} : Str.contains s [] = true := by
  cases s <;> simp [Str.contains, Str.index]

/-- The steps of a run that succeeds. -/
theorem compile_ok {b : Box} {u : Uni} {depth : Nat} {dir : Dir} {name : Str} {ws : List (Dir × Str)}
    (h : b.compile u depth dir name = .ok ws) :
    ∃ text root g fs order x deps y, fileAt b.fs dir (lit "claw.mod") = some text ∧ Mod.parseModule u text = .ok root ∧
      vendorDeps b.world u depth b.repo root [] (pathOf (name :: dir)) = .ok g ∧ create b.vendorDir b.fs (b.pkgs root g) = .ok fs ∧
      compileOrder g.edges (b.shuffle g) depth = .ok order ∧ b.compileAll u depth fs (pathOf (name :: dir)) order = .ok x ∧
      (fileAt fs dir name).bind b.schema = some deps ∧ b.readAndWrite u depth fs dir deps = .ok y ∧ ws = x ++ y := by
  simp only [Box.compile, Out.bind_eq_ok] at h
  obtain ⟨⟨g, fs⟩, h0, order, h5, x, h6, deps, h7, y, h8, h9⟩ := h
  cases h9
  simp only [Box.vendored, Out.bind_eq_ok] at h0
  obtain ⟨text, h1, root, h2, g', h3, fs', h4, h0⟩ := h0
  cases h0
  have ho : ∀ {α : Type} {o : Option α} {a : α}, Out.ofOption o = .ok a → o = some a := by
    intro α o a h; cases o <;> cases h; rfl
  exact ⟨text, root, g, fs, order, x, deps, y, ho h1, h2, h3, h4, h5, h6, ho h7, h8, rfl⟩

theorem ofOption_ok {α : Type} {o : Option α} {a : α} (h : Out.ofOption o = .ok a) : o = some a := by
  cases o <;> cases h; rfl

theorem guard_ok {c : Bool} {x : Unit} (h : Out.guard c = .ok x) : c = true := by
  cases c
  · cases h
  · rfl

theorem write_ok {fs : FS} {dirOf : Str → Dir} {ps : List Str} {ws : List (Dir × Str)} (h : write fs dirOf ps = .ok ws) :
    ws = ps.map (fun p => (dirOf p, p)) ∧ ∀ p ∈ ps, isDir fs (dirOf p) = true := by
  unfold write at h
  split at h
  · rename_i hx
    cases h
    exact ⟨rfl, by simpa using hx⟩
  · cases h

theorem compileAll_ok {b : Box} {u : Uni} {depth : Nat} {fs : FS} {top : Str} : ∀ {l : List Str} {ws : List (Dir × Str)},
    b.compileAll u depth fs top l = .ok ws →
    (∀ p ∈ l, ∃ x, b.compileOne u depth fs top p = .ok x ∧ ∀ w ∈ x, w ∈ ws) ∧
    ∀ w ∈ ws, ∃ p ∈ l, ∃ x, b.compileOne u depth fs top p = .ok x ∧ w ∈ x
  | [], ws, h => by cases h; simp
  | p :: l, ws, h => by
    simp only [Box.compileAll, Out.bind_eq_ok] at h
    obtain ⟨x, h1, y, h2, h3⟩ := h
    cases h3
    obtain ⟨i1, i2⟩ := compileAll_ok h2
    constructor
    · intro q hq
      rcases List.mem_cons.1 hq with rfl | hq
      · exact ⟨x, h1, fun w hw => List.mem_append.2 (.inl hw)⟩
      · obtain ⟨z, hz, hw⟩ := i1 q hq
        exact ⟨z, hz, fun w h => List.mem_append.2 (.inr (hw w h))⟩
    · intro w hw
      rcases List.mem_append.1 hw with hw | hw
      · exact ⟨p, by simp, x, h1, hw⟩
      · obtain ⟨q, hq, z, hz, hw⟩ := i2 w hw
        exact ⟨q, by simp [hq], z, hz, hw⟩

theorem readAndWrite_ok {b : Box} {u : Uni} {depth : Nat} {fs : FS} {d : Dir} {deps : List Str} {ws : List (Dir × Str)}
    (h : b.readAndWrite u depth fs d deps = .ok ws) :
    ∃ m got, modulePath u fs d = .ok m ∧ readTop (readVendored (b.vendoredFile fs) depth) m deps = .ok got ∧
      ws = got.map (fun p => (b.dirOf p, p)) ∧ ∀ p ∈ got, isDir fs (b.dirOf p) = true := by
  simp only [Box.readAndWrite, Out.bind_eq_ok] at h
  obtain ⟨m, h1, got, h2, h3⟩ := h
  exact ⟨m, got, h1, h2, write_ok h3⟩

theorem readTop_mem {reader : List Str → Str → List Str → Out (List Str)} {m : Str} {deps got : List Str}
    (h : readTop reader m deps = .ok got) : m ∈ got := by
  simp only [readTop, Out.bind_eq_ok] at h
  obtain ⟨g, _, h⟩ := h
  cases h
  simp

/-- What VendoredConfig.Read collects: the imports and what they import. -/
theorem readTop_closed {file : Str → Option (List Str)} {n : Nat} {m : Str} {deps got : List Str}
    (h : readTop (readVendored file n) m deps = .ok got) :
    ∃ g, got = g ++ [m] ∧ (∀ d ∈ deps, d ∈ g) ∧ (∀ x ∈ g, ∀ d ∈ edgesOf file x, d ∈ g) ∧ (∀ x ∈ g, (file x).isSome = true) ∧
      m ∉ g ∧ ∀ x ∈ g, ∃ d ∈ deps, Reach (edgesOf file) d x := by
  rw [readTop, Out.bind_eq_ok] at h
  obtain ⟨g, hw, h⟩ := h
  cases h
  have hk := Vendor.walk_ok hw (fun done x => Vendor.VRead file m [] x ∧ (∀ d ∈ done, d ∈ x) ∧ ∀ y ∈ x, ∃ d ∈ deps, Reach (edgesOf file) d y)
    ⟨⟨by simp, by simp, by simp, by simp, by simp⟩, by simp, by simp⟩ (by
      rintro d hd done x1 x2 ⟨g1, k, r⟩ hx
      obtain ⟨g2, m2, k2, r2⟩ := Vendor.vread_ok n [] d x1 x2 g1 hx
      refine ⟨g2, ?_, ?_⟩
      · intro y hy
        rcases List.mem_append.1 hy with hy | hy
        · exact k2 y (k y hy)
        · simp only [List.mem_singleton] at hy
          subst hy
          exact m2
      · intro y hy
        rcases r2 y hy with hy | hy
        · exact r y hy
        · exact ⟨d, hd, hy⟩)
  obtain ⟨g1, k, r⟩ := hk
  exact ⟨g, rfl, k, fun x hx d hd => g1.closed x hx (by simp) d hd, g1.readable, g1.notTop, r⟩

end Claw.Compile
