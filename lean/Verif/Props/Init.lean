import Verif.Spec.Init
import Verif.Props.ModWrite
import Verif.Props.Vcs

/-!
# C134: claw.work files and `clawc init`
-/

namespace Claw.Init

open Claw.Idl (Out)
open Claw.Mod (Work parseWork workText modText initPath splitBy moduleInRepo C87_work_partial C87_in_repo_iff Word)
open Claw.Vendor (trimSuffix trimSuffix_append)
open Claw.InitSpec

/-! ### Finding claw.work -/

theorem findUp_eq (fs : FS) (rev : List Str) :
    ∃ next, findUp fs rev = look (fs rev.reverse (lit "claw.work")) rev.reverse next := by
  cases rev with
  | nil => exact ⟨_, rfl⟩
  | cons x up => exact ⟨_, rfl⟩

theorem findUp_content {fs : FS} {rev : List Str} {b : Bytes} (h : fs rev.reverse (lit "claw.work") = .content b) :
    findUp fs rev = match parseWork b with | .ok w => .ok (w, rev.reverse) | .err => .err | .panic => .panic := by
  obtain ⟨n, e⟩ := findUp_eq fs rev
  rw [e, h]
  rfl

theorem findUp_unreadable {fs : FS} {rev : List Str} (h : fs rev.reverse (lit "claw.work") = .unreadable) : findUp fs rev = .err := by
  obtain ⟨n, e⟩ := findUp_eq fs rev
  rw [e, h]
  rfl

theorem findUp_skip {fs : FS} (d : Dir) : ∀ rest : List Str,
    (∀ e, d <+: e → e <+: d ++ rest → e ≠ d → fs e (lit "claw.work") = .missing) →
    findUp fs (d ++ rest).reverse = findUp fs d.reverse := by
  intro rest
  induction hl : rest.length generalizing rest with
  | zero =>
    intro _
    have : rest = [] := by simpa using hl
    subst this
    simp
  | succ n ih =>
    intro h
    have hne : rest ≠ [] := by intro e; rw [e] at hl; simp at hl
    obtain ⟨r, x, rfl⟩ : ∃ r x, rest = r ++ [x] := ⟨rest.dropLast, rest.getLast hne, (List.dropLast_concat_getLast hne).symm⟩
    have h1 := h (d ++ (r ++ [x])) ⟨_, rfl⟩ (List.prefix_refl _) (by simp)
    have e : (d ++ (r ++ [x])).reverse = x :: (d ++ r).reverse := by simp
    rw [e, findUp, ← e, List.reverse_reverse, h1]
    show findUp fs (d ++ r).reverse = _
    refine ih r (by simpa using hl) ?_
    intro e h2 h3 h4
    exact h e h2 (h3.trans ⟨[x], by simp⟩) h4

theorem findUp_none {fs : FS} : ∀ dir : Dir, NoneUp fs dir → findUp fs dir.reverse = .err := by
  intro dir
  induction hl : dir.length generalizing dir with
  | zero =>
    intro h
    have : dir = [] := by simpa using hl
    subst this
    show look (fs [] (lit "claw.work")) [] .err = .err
    rw [h [] (List.prefix_refl _)]
    rfl
  | succ n ih =>
    intro h
    have hne : dir ≠ [] := by intro e; rw [e] at hl; simp at hl
    obtain ⟨r, x, rfl⟩ : ∃ r x, dir = r ++ [x] := ⟨dir.dropLast, dir.getLast hne, (List.dropLast_concat_getLast hne).symm⟩
    have e : (r ++ [x]).reverse = x :: r.reverse := by simp
    rw [e, findUp, ← e, List.reverse_reverse, h _ (List.prefix_refl _)]
    show findUp fs r.reverse = _
    exact ih r (by simpa using hl) fun e he => h e (he.trans ⟨[x], rfl⟩)

theorem findWork_at {fs : FS} {dir d : Dir} (h : Nearest fs dir d) : findWork fs dir = findUp fs d.reverse := by
  obtain ⟨⟨rest, rfl⟩, _, h3⟩ := h
  exact findUp_skip d rest h3

/-- There is a nearest one or none. -/
theorem nearest_or (fs : FS) (dir : Dir) : (∃ d, Nearest fs dir d) ∨ NoneUp fs dir := by
  induction hl : dir.length generalizing dir with
  | zero =>
    have : dir = [] := by simpa using hl
    subst this
    by_cases h : fs [] (lit "claw.work") = .missing
    · right
      intro e he
      rw [List.prefix_nil.1 he]
      exact h
    · left
      exact ⟨[], List.prefix_refl _, h, fun e _ h2 h3 => absurd (List.prefix_nil.1 h2) h3⟩
  | succ n ih =>
    have hne : dir ≠ [] := by intro e; rw [e] at hl; simp at hl
    obtain ⟨r, x, rfl⟩ : ∃ r x, dir = r ++ [x] := ⟨dir.dropLast, dir.getLast hne, (List.dropLast_concat_getLast hne).symm⟩
    by_cases h : fs (r ++ [x]) (lit "claw.work") = .missing
    · rcases ih r (by simpa using hl) with ⟨d, h1, h2, h3⟩ | h1
      · left
        refine ⟨d, h1.trans ⟨[x], rfl⟩, h2, ?_⟩
        intro e he1 he2 he3
        rcases List.prefix_concat_iff.1 he2 with he | he
        · rw [he]; exact h
        · exact h3 e he1 he he3
      · right
        intro e he
        rcases List.prefix_concat_iff.1 he with he | he
        · rw [he]; exact h
        · exact h1 e he
    · left
      refine ⟨r ++ [x], List.prefix_refl _, h, ?_⟩
      intro e h1 h2 h3
      exact absurd (h2.eq_of_length (Nat.le_antisymm h2.length_le h1.length_le)) h3

/-- C134: the claw.work file is the nearest one from the directory up. -/
theorem C134_find_iff (fs : FS) (dir d : Dir) (w : Work) :
    findWork fs dir = .ok (w, d) ↔ Nearest fs dir d ∧ ∃ b, fs d (lit "claw.work") = .content b ∧ parseWork b = .ok w := by
  constructor
  · intro h
    rcases nearest_or fs dir with ⟨e, he⟩ | hn
    · rw [findWork_at he] at h
      cases hf : fs e (lit "claw.work") with
      | missing => exact absurd hf he.2.1
      | unreadable => rw [findUp_unreadable (by simpa using hf)] at h; cases h
      | content b =>
        rw [findUp_content (b := b) (by simpa using hf)] at h
        cases hp : parseWork b with
        | ok w2 =>
          rw [hp] at h
          simp only [List.reverse_reverse, Out.ok.injEq, Prod.mk.injEq] at h
          obtain ⟨rfl, rfl⟩ := h
          exact ⟨he, b, hf, hp⟩
        | err => rw [hp] at h; cases h
        | panic => rw [hp] at h; cases h
    · rw [findWork, findUp_none dir hn] at h
      cases h
  · rintro ⟨hn, b, hf, hp⟩
    rw [findWork_at hn, findUp_content (b := b) (by simpa using hf), hp]
    simp

/-- C134: without one, from the directory up, there is an error. -/
theorem C134_find_none {fs : FS} {dir : Dir} (h : NoneUp fs dir) : findWork fs dir = .err := findUp_none dir h

/-- C134: one that cannot be read, or that is not in form, is an error too, whatever there is further up. -/
theorem C134_find_bad {fs : FS} {dir d : Dir} (h : Nearest fs dir d)
    (hb : fs d (lit "claw.work") = .unreadable ∨ ∃ b, fs d (lit "claw.work") = .content b ∧ parseWork b = .err) : findWork fs dir = .err := by
  rw [findWork_at h]
  rcases hb with hb | ⟨b, hb, hp⟩
  · exact findUp_unreadable (by simpa using hb)
  · rw [findUp_content (b := b) (by simpa using hb), hp]

/-! ### Relative paths -/

theorem strip_prefix (base rest : Dir) : strip base (base ++ rest) = ([], rest) := by
  induction base with
  | nil => cases rest <;> simp [strip]
  | cons a base ih => simp [strip, ih]

theorem joined_eq (repo : Str) : ∀ {below : List Str}, below ≠ [] → repo ++ lit "/" ++ joined below = modulePath repo below := by
  intro below
  induction below generalizing repo with
  | nil => intro h; exact absurd rfl h
  | cons x l ih =>
    intro _
    cases l with
    | nil => simp [joined, modulePath, lit]
    | cons y l =>
      have := ih (repo ++ 47 :: x) (by simp)
      have e : modulePath repo (x :: y :: l) = modulePath (repo ++ 47 :: x) (y :: l) := rfl
      rw [e, ← this, joined]
      simp [lit]

theorem joined_head {x : Str} {l : List Str} : ∃ t, joined (x :: l) = x ++ t := by
  cases l with
  | nil => exact ⟨[], by simp [joined]⟩
  | cons y l => exact ⟨_, rfl⟩

theorem joined_names {x : Str} {l : List Str} (h : x ≠ [] ∧ x ≠ lit "." ∧ (47 : UInt8) ∉ x) : joined (x :: l) ≠ lit "." := by
  cases l with
  | nil => simpa [joined] using h.2.1
  | cons y l =>
    intro e
    rw [joined] at e
    have h1 := congrArg List.length e
    simp only [List.length_append, List.length_cons] at h1
    have : (lit ".").length = 1 := rfl
    have h2 : x.length ≠ 0 := by simpa using h.1
    omega

theorem initPath_rel (repo : Str) (d rest : Dir) (hn : ∀ x ∈ rest, x ≠ [] ∧ x ≠ lit "." ∧ (47 : UInt8) ∉ x) :
    initPath repo (rel d (d ++ rest)) = modulePath repo rest := by
  rw [initPath, rel, strip_prefix]
  cases rest with
  | nil => simp [modulePath]
  | cons x l =>
    simp only [List.map_nil, List.nil_append]
    rw [if_neg (joined_names (hn x (by simp))), joined_eq repo (by simp)]

theorem modulePath_in (repo : Str) (below : List Str) : moduleInRepo (modulePath repo below) repo = true := by
  rw [C87_in_repo_iff]
  cases below with
  | nil => exact .inl rfl
  | cons x l => exact .inr ⟨joined (x :: l), (joined_eq repo (by simp)).symm⟩

theorem splitBy_snoc {x : Str} (hx : (47 : UInt8) ∉ x) : ∀ acc : Str, splitBy 47 (acc ++ 47 :: x) = splitBy 47 acc ++ [x] := by
  intro acc
  induction acc with
  | nil =>
    have h : splitBy 47 (47 :: x) = [] :: splitBy 47 x := Fetch.splitBy_cons (s := []) x (by simp)
    rw [List.nil_append, h, Fetch.splitBy_none' hx]
    rfl
  | cons c acc ih =>
    rw [List.cons_append, splitBy, splitBy, ih]
    cases h : splitBy 47 acc with
    | nil => exact absurd h (Vendor.splitBy_ne acc)
    | cons p ps =>
      simp only [List.cons_append]
      split <;> simp

theorem splitBy_fold : ∀ (d : Dir) (acc : Str), Names d → splitBy 47 (d.foldl (fun p x => p ++ 47 :: x) acc) = splitBy 47 acc ++ d := by
  intro d
  induction d with
  | nil => intro acc _; simp
  | cons x d ih =>
    intro acc h
    rw [List.foldl_cons, ih _ fun y hy => h y (by simp [hy]), splitBy_snoc (h x (by simp)).2]
    simp

theorem toDir_text {d : Dir} (h : Names d) : toDir (trimSuffix (lit "/") (dirText d)) = d := by
  rw [dirText, show ([47] : Str) = lit "/" from rfl, trimSuffix_append, toDir, splitBy_fold d [] h]
  have h2 : (splitBy 47 [] : List Str) = [[]] := rfl
  rw [h2, List.singleton_append, List.filter_cons, if_neg (by simp)]
  rw [List.filter_eq_self]
  intro x hx
  simpa using (h x hx).1

theorem text_ne {d : Dir} (hd : d ≠ []) : trimSuffix (lit "/") (dirText d) ≠ [] := by
  rw [dirText, show ([47] : Str) = lit "/" from rfl, trimSuffix_append]
  have : ∀ (d : Dir) (acc : Str), acc ≠ [] → d.foldl (fun p x => p ++ 47 :: x) acc ≠ [] := by
    intro d
    induction d with
    | nil => intro acc h; exact h
    | cons x d ih => intro acc _; exact ih _ (by simp)
  cases d with
  | nil => exact absurd rfl hd
  | cons x d => exact this d _ (by simp)

/-! ### clawc init -/

/-- C134: where there is a claw.mod file already, nothing is written. -/
theorem C134_keeps {fs : FS} {cwd : Dir} (h : fs cwd (lit "claw.mod") ≠ .missing) (git : Option Git) : handleInit fs git cwd = .err := by
  unfold handleInit
  rw [if_pos h]

/-- C134: below a claw.work file, `clawc init` writes a claw.mod file and nothing else; the module is the repository of the claw.work file
and the way from there, it is in the repository, and clawc still finds the same claw.work file. -/
theorem C134_in_work {fs : FS} {d rest : Dir} {w : Work} (hm : fs (d ++ rest) (lit "claw.mod") = .missing)
    (hw : findWork fs (d ++ rest) = .ok (w, d)) (hn : ∀ x ∈ rest, x ≠ [] ∧ x ≠ lit "." ∧ (47 : UInt8) ∉ x) (git : Option Git) :
    handleInit fs git (d ++ rest) = .ok [⟨d ++ rest, lit "claw.mod", modText (modulePath w.repo rest)⟩] ∧
    moduleInRepo (modulePath w.repo rest) w.repo = true ∧
    findWork (writeAll fs [⟨d ++ rest, lit "claw.mod", modText (modulePath w.repo rest)⟩]) (d ++ rest) = .ok (w, d) := by
  refine ⟨?_, modulePath_in _ _, ?_⟩
  · unfold handleInit
    rw [if_neg (by simp [hm]), hw]
    simp only [initPath_rel w.repo d rest hn]
  · have same : ∀ e, writeAll fs [⟨d ++ rest, lit "claw.mod", modText (modulePath w.repo rest)⟩] e (lit "claw.work") =
        fs e (lit "claw.work") := by
      intro e
      show (if e = d ++ rest ∧ lit "claw.work" = lit "claw.mod" then _ else _) = _
      rw [if_neg]
      rintro ⟨_, h⟩
      exact absurd h (by decide)
    rw [C134_find_iff] at hw ⊢
    obtain ⟨⟨h1, h2, h3⟩, b, h4, h5⟩ := hw
    exact ⟨⟨h1, by rw [same]; exact h2, fun e a1 a2 a3 => by rw [same]; exact h3 e a1 a2 a3⟩, b, by rw [same]; exact h4, h5⟩

theorem init_git {fs : FS} {cwd top : Dir} {g : Git} {o : Str} (hm : fs cwd (lit "claw.mod") = .missing)
    (hw : findWork fs cwd = .err) (hr : g.root = .ok (if top = cwd then [] else dirText top)) (ho : g.origin = .ok o)
    (ht : Names top) (hne : top ≠ []) :
    handleInit fs (some g) cwd = .ok [⟨top, lit "claw.work", workText o (lit "claw_vendor")⟩,
      ⟨cwd, lit "claw.mod", modText (initPath o (rel top cwd))⟩] := by
  rw [handleInit, if_neg (by simp [hm]), hw]
  simp only [hr, ho, Out.ok_bind]
  by_cases hc : top = cwd
  · subst hc
    have h0 : trimSuffix (lit "/") [] = [] := by decide
    simp only [if_true, h0]
  · simp only [hc, if_false]
    rw [if_neg (text_ne hne), toDir_text ht]

theorem write_work {fs : FS} {top cwd : Dir} (a b : Bytes) (e : Dir) :
    writeAll fs [⟨top, lit "claw.work", a⟩, ⟨cwd, lit "claw.mod", b⟩] e (lit "claw.work") =
      if e = top then .content a else fs e (lit "claw.work") := by
  show (if e = cwd ∧ lit "claw.work" = lit "claw.mod" then _ else if e = top ∧ lit "claw.work" = lit "claw.work" then _ else _) = _
  rw [if_neg]
  · simp
  · rintro ⟨_, h⟩
    exact absurd h (by decide)

/-- C134 (partial): in a work tree of git without claw.work, `clawc init` writes claw.work at the top of the tree, for the remote, and claw.mod
in the directory; the module is the remote and the way from the top, it is in the repository, and clawc finds the new claw.work file.
Missing: roots that git does not give as a directory above (see `C134_worktree`), claw.work files that are not in form (see
`C134_overwrites`, `C134_shadowed`). -/
theorem C134_in_git_partial {fs : FS} {top rest : Dir} {g : Git} {o : Str} (hm : fs (top ++ rest) (lit "claw.mod") = .missing)
    (hnone : NoneUp fs (top ++ rest)) (hr : g.root = .ok (if top = top ++ rest then [] else dirText top)) (ho : g.origin = .ok o)
    (ht : Names top) (hne : top ≠ []) (hn : ∀ x ∈ rest, x ≠ [] ∧ x ≠ lit "." ∧ (47 : UInt8) ∉ x) (how : Word o)
    (ho2 : Str.contains o (lit "//") = false) :
    ∃ files, handleInit fs (some g) (top ++ rest) = .ok files ∧
      files = [⟨top, lit "claw.work", workText o (lit "claw_vendor")⟩, ⟨top ++ rest, lit "claw.mod", modText (modulePath o rest)⟩] ∧
      moduleInRepo (modulePath o rest) o = true ∧
      findWork (writeAll fs files) (top ++ rest) = .ok (⟨o, lit "claw_vendor"⟩, top) := by
  refine ⟨_, ?_, rfl, modulePath_in _ _, ?_⟩
  · rw [init_git hm (findUp_none _ hnone) hr ho ht hne, initPath_rel o top rest hn]
  · rw [C134_find_iff]
    refine ⟨⟨⟨rest, rfl⟩, ?_, ?_⟩, workText o (lit "claw_vendor"), ?_, ?_⟩
    · rw [write_work, if_pos rfl]
      simp
    · intro e h1 h2 h3
      rw [write_work, if_neg h3]
      exact hnone e h2
    · rw [write_work, if_pos rfl]
    · exact C87_work_partial how (Mod.word_lit (by decide) (by decide)) ho2 (by decide)

/-- C134 is violated: a claw.work file that is not in form, at the top of a work tree of git, is overwritten. -/
theorem C134_overwrites {fs : FS} {top rest : Dir} {g : Git} {o : Str} {b : Bytes} (hm : fs (top ++ rest) (lit "claw.mod") = .missing)
    (hb : fs top (lit "claw.work") = .content b) (hp : parseWork b = .err)
    (hnone : ∀ e, top <+: e → e <+: top ++ rest → e ≠ top → fs e (lit "claw.work") = .missing)
    (hr : g.root = .ok (if top = top ++ rest then [] else dirText top)) (ho : g.origin = .ok o) (ht : Names top) (hne : top ≠ []) :
    ∃ files, handleInit fs (some g) (top ++ rest) = .ok files ∧
      writeAll fs files top (lit "claw.work") = .content (workText o (lit "claw_vendor")) := by
  have hbad : findWork fs (top ++ rest) = .err :=
    C134_find_bad ⟨⟨rest, rfl⟩, by rw [hb]; simp, hnone⟩ (.inr ⟨b, hb, hp⟩)
  refine ⟨_, init_git hm hbad hr ho ht hne, ?_⟩
  rw [write_work, if_pos rfl]

/-- C134 is violated: with a claw.work file that is not in form between the directory and the top of the work tree, `clawc init` reports
success, and clawc fails as before. -/
theorem C134_shadowed {fs : FS} {top rest d : Dir} {g : Git} {o : Str} {b : Bytes} (hm : fs (top ++ rest) (lit "claw.mod") = .missing)
    (hd : Nearest fs (top ++ rest) d) (hdt : d ≠ top) (htd : top <+: d) (hb : fs d (lit "claw.work") = .content b) (hp : parseWork b = .err)
    (hr : g.root = .ok (if top = top ++ rest then [] else dirText top)) (ho : g.origin = .ok o) (ht : Names top) (hne : top ≠ []) :
    ∃ files, handleInit fs (some g) (top ++ rest) = .ok files ∧ findWork (writeAll fs files) (top ++ rest) = .err := by
  have hbad : findWork fs (top ++ rest) = .err := C134_find_bad hd (.inr ⟨b, hb, hp⟩)
  refine ⟨_, init_git hm hbad hr ho ht hne, ?_⟩
  refine C134_find_bad (d := d) ⟨hd.1, ?_, ?_⟩ (.inr ⟨b, ?_, hp⟩)
  · rw [write_work, if_neg hdt]
    exact hd.2.1
  · intro e h1 h2 h3
    rw [write_work, if_neg]
    · exact hd.2.2 e h1 h2 h3
    · intro he
      subst he
      exact h3 (htd.eq_of_length (Nat.le_antisymm htd.length_le h1.length_le))
  · rw [write_work, if_neg hdt]
    exact hb

/-- C134 is violated: in a linked worktree, whose root is taken for that of the main one (`C132_worktree`), claw.work is written into the main
one, the module has `..` in its path, and clawc finds no claw.work file afterwards. -/
theorem C134_worktree {fs : FS} {above rest : Dir} {main tree : Str} {g : Git} {o : Str} (hmt : main ≠ tree)
    (hm : fs (above ++ tree :: rest) (lit "claw.mod") = .missing) (hnone : NoneUp fs (above ++ tree :: rest))
    (hr : g.root = .ok (dirText (above ++ [main]))) (ho : g.origin = .ok o) (ht : Names (above ++ [main])) :
    ∃ files, handleInit fs (some g) (above ++ tree :: rest) = .ok files ∧
      files = [⟨above ++ [main], lit "claw.work", workText o (lit "claw_vendor")⟩,
        ⟨above ++ tree :: rest, lit "claw.mod", modText (modulePath o (lit ".." :: tree :: rest))⟩] ∧
      findWork (writeAll fs files) (above ++ tree :: rest) = .err := by
  have hne : above ++ [main] ≠ above ++ tree :: rest := by
    intro h
    have := List.append_cancel_left h
    simp only [List.cons.injEq] at this
    exact hmt this.1
  have hstrip : strip (above ++ [main]) (above ++ tree :: rest) = ([main], tree :: rest) := by
    clear hm hnone hr ht hne
    induction above with
    | nil => simp [strip, hmt]
    | cons a above ih => simp [strip, ih]
  have hrel : initPath o (rel (above ++ [main]) (above ++ tree :: rest)) = modulePath o (lit ".." :: tree :: rest) := by
    rw [rel, hstrip]
    simp only [List.map_cons, List.map_nil, List.singleton_append]
    rw [initPath, if_neg, joined_eq o (by simp)]
    exact joined_names ⟨by decide, by decide, by decide⟩
  refine ⟨_, ?_, rfl, ?_⟩
  · rw [init_git hm (findUp_none _ hnone) (top := above ++ [main]) (by rw [if_neg hne]; exact hr) ho ht (by simp), hrel]
  · apply findUp_none
    intro e he
    rw [write_work, if_neg]
    · exact hnone e he
    · rintro rfl
      obtain ⟨t, h⟩ := he
      rw [List.append_assoc] at h
      have := List.append_cancel_left h
      simp only [List.singleton_append, List.cons.injEq] at this
      exact hmt this.1

/-- C134 is violated: where asking git for its root or its remote panics, as with `user@host:path` for a remote (`C132_scp`), `clawc init`
panics. -/
theorem C134_panics {fs : FS} {cwd : Dir} {g : Git} {r : Str} (hm : fs cwd (lit "claw.mod") = .missing) (hw : findWork fs cwd = .err)
    (h : g.root = .panic ∨ (g.root = .ok r ∧ g.origin = .panic)) : handleInit fs (some g) cwd = .panic := by
  rw [handleInit, if_neg (by simp [hm]), hw]
  rcases h with h | ⟨h1, h2⟩
  · simp only [h]
    rfl
  · simp only [h1, h2, Out.ok_bind]
    rfl

/-- C134 is violated: a schema file or its directory cannot be given on the command line, as they are meant to; nor are there the commands
`clawc mod init` and `clawc work init` of the README. -/
theorem C134_command {a : Str} (h1 : a ≠ lit "get") (h2 : a ≠ lit "init") (rest : List Str) : command (a :: rest) = .unknown := by
  rw [command, if_neg h1, if_neg h2]

/-! ### Examples -/

/-- A work tree at `/src/claw` without files. -/
def empty : FS := fun _ _ => .missing

def demoGit : Git := ⟨.ok (lit "/src/claw/"), .ok (lit "github.com/a/claw")⟩

example : handleInit empty (some demoGit) [lit "src", lit "claw", lit "x", lit "y"] =
    .ok [⟨[lit "src", lit "claw"], lit "claw.work", lit "repo github.com/a/claw\n\nvendorDir claw_vendor\n"⟩,
      ⟨[lit "src", lit "claw", lit "x", lit "y"], lit "claw.mod", lit "module github.com/a/claw/x/y\n"⟩] := by decide +kernel

example : dirText [lit "src", lit "claw"] = lit "/src/claw/" := by decide
example : NoneUp empty [lit "src", lit "claw", lit "x"] := fun _ _ => rfl

/-- A linked worktree at `/src/fix`. -/
example : handleInit empty (some demoGit) [lit "src", lit "fix"] =
    .ok [⟨[lit "src", lit "claw"], lit "claw.work", lit "repo github.com/a/claw\n\nvendorDir claw_vendor\n"⟩,
      ⟨[lit "src", lit "fix"], lit "claw.mod", lit "module github.com/a/claw/../fix\n"⟩] := by decide +kernel

/-- claw.work at the top of the tree, with a word in capitals. -/
def badWork : FS := fun d n => if d = [lit "src", lit "claw"] ∧ n = lit "claw.work" then .content (lit "Repo github.com/a/mine\nvendorDir third\n")
  else .missing

example : parseWork (lit "Repo github.com/a/mine\nvendorDir third\n") = .err := by decide +kernel
example : findWork badWork [lit "src", lit "claw", lit "x"] = .err := by decide +kernel
example : handleInit badWork (some demoGit) [lit "src", lit "claw", lit "x"] ≠ .err := by decide +kernel

example : findWork (writeAll empty [⟨[lit "src"], lit "claw.work", workText (lit "a.b/c") (lit "v")⟩]) [lit "src", lit "x"] =
    .ok (⟨lit "a.b/c", lit "v"⟩, [lit "src"]) := by decide +kernel

/-- C134: `get` and `init` are run with what follows them; without arguments the directory is compiled. -/
theorem C134_commands (rest : List Str) : command (lit "get" :: rest) = .get rest ∧ command (lit "init" :: rest) = .init ∧ command [] = .compile [] :=
  ⟨rfl, rfl, rfl⟩

/-- C134: outside git, without a claw.work file, `clawc init` is an error. -/
theorem C134_outside {fs : FS} {cwd : Dir} (h : NoneUp fs cwd) : handleInit fs none cwd = .err := by
  rw [handleInit]
  split
  · rfl
  · rw [C134_find_none h]

example : handleInit (fun _ _ => .missing) none [lit "home", lit "me"] = .err := C134_outside fun _ _ => rfl

example : command [lit "cars.claw"] = .unknown := C134_command (by decide) (by decide) []
example : command [lit "mod", lit "init", lit "github.com/a/b"] = .unknown := C134_command (by decide) (by decide) _

end Claw.Init
