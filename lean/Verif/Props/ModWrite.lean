import Verif.Props.ModFile

/-!
# Files that clawc writes, and local.replace (C87–C89)
-/

namespace Claw.Mod

open Claw.Idl (Out Uni isComment lower)
open Claw.Text (lines words Solid BlankText lines_line words_solid words_split words_blank solid_graphic solid_no_newline)

/-! ### C87: `clawc init` -/

theorem no_tail : TailOk none := fun c h => by cases h

theorem words_pair {a b : Bytes} (ha : Word a) (hb : Word b) : words (a ++ 32 :: b) = [a, b] := by
  rw [words_split ha.1 ha.2, words_solid hb.1 hb.2]

theorem pair_no_newline {a b : Bytes} (ha : Word a) (hb : Word b) : 10 ∉ a ++ 32 :: b := by
  have h1 := solid_no_newline ha.1
  have h2 := solid_no_newline hb.1
  simp [h1, h2]

/-- C87: the claw.work file of `clawc init` is read as the repository and the vendor directory. -/
theorem C87_work_partial {repo dir : Str} (hr : Word repo) (hd : Word dir) (h1 : Str.contains repo (lit "//") = false)
    (h2 : Str.hasPrefix (lit "/") dir = false) : parseWork (workText repo dir) = .ok ⟨repo, dir⟩ := by
  have hw1 := words_pair (word_lit (s := "repo") (by decide) (by decide)) hr
  have hw2 := words_pair (word_lit (s := "vendorDir") (by decide) (by decide)) hd
  have hl : fileLines (workText repo dir) = [[lit "repo", repo], [lit "vendorDir", dir]] := by
    have : workText repo dir =
        (lit "repo" ++ 32 :: repo) ++ [10] ++ ([] ++ [10] ++ ((lit "vendorDir" ++ 32 :: dir) ++ [10] ++ [])) := by
      simp [workText, show lit "repo " = lit "repo" ++ [32] from rfl,
        show lit "\n\nvendorDir " = [10, 10] ++ lit "vendorDir" ++ [32] from rfl, show lit "\n" = [10] from rfl]
    rw [this, fileLines_words (pair_no_newline (word_lit (by decide) (by decide)) hr) hw1, fileLines_line (by simp),
      fileLines_words (pair_no_newline (word_lit (by decide) (by decide)) hd) hw2]
    rfl
  have hc : ∀ a b : Str, commentOrEOL [a, b] 2 = .ok () := by
    intro a b
    exact commentOrEOL_tail [a, b] none
  have hrest : workRest ⟨repo, []⟩ [[lit "vendorDir", dir]] = .ok ⟨repo, dir⟩ := by
    rw [workRest, item_zero, Out.ok_bind, if_neg (by decide), if_pos (by decide), if_neg (by simp)]
    simp only [hc, Out.ok_bind, item_one, itemCount]
    rfl
  rw [parseWork, hl, skipComments, if_neg (show ¬isComment ([lit "repo", repo].headD []) = true by
    show ¬isComment (lit "repo") = true
    decide)]
  simp only [hc, hrest, item_zero, item_one, Out.ok_bind]
  have e1 : Out.guard (decide (3 ≤ itemCount [lit "repo", repo])) = .ok () := rfl
  have e2 : Out.guard (decide True) = .ok () := rfl
  have e3 : validWork ⟨repo, dir⟩ = .ok () := by
    simp [validWork, Out.guard, hr.2, hd.2, h1, h2]
  rw [e1, e2, e3]
  rfl

example : parseWork (workText (lit "github.com/me/repo") (lit "claw_vendor")) = .ok ⟨lit "github.com/me/repo", lit "claw_vendor"⟩ :=
  C87_work_partial (word_lit (by decide) (by decide)) (word_lit (by decide) (by decide)) (by decide +kernel) (by decide)

/-- C87 where it holds: the claw.mod file of `clawc init` is read as the module path, if the name of the directory is a valid
package name. -/
theorem C87_module_partial (u : Uni) {path : Str} (hp : Word path) (hv : validModuleName u path = .ok ()) :
    parseModule u (modText path) = .ok ⟨path, [], [], []⟩ := by
  have := C86_read_partial u hp hv no_tail (ss := []) (by simp) (by decide) (by decide)
  have e : modFile path none [] = modText path := by simp [modFile, modText, tailText, show lit "\n" = [10] from rfl]
  rw [e] at this
  exact this

/-- C87: a module is in a repository exactly if its path is the path of the repository, or goes on with a slash. -/
theorem C87_in_repo_iff (modulePath repo : Str) :
    moduleInRepo modulePath repo = true ↔ modulePath = repo ∨ ∃ rel, modulePath = repo ++ lit "/" ++ rel := by
  have hs : lit "/" = [47] := rfl
  rw [hs]
  constructor
  · intro h
    simp only [moduleInRepo, Bool.and_eq_true, Str.hasPrefix, List.isPrefixOf_iff_prefix] at h
    obtain ⟨⟨t, rfl⟩, h⟩ := h
    cases t with
    | nil => exact .inl (by simp)
    | cons c t =>
      simp at h
      exact .inr ⟨t, by simp [h]⟩
  · rintro (rfl | ⟨rel, rfl⟩)
    · simp [moduleInRepo, Str.hasPrefix]
    · simp [moduleInRepo, Str.hasPrefix]

/-- C87: the module that `clawc init` makes is in the repository of claw.work. -/
theorem C87_new_module_in_repo (repo rel : Str) : moduleInRepo (initPath repo rel) repo = true := by
  rw [C87_in_repo_iff, initPath]
  split
  · exact .inl rfl
  · exact .inr ⟨rel, rfl⟩

/-- C87 is violated: in a directory with a character in its name that is no letter, number or underscore, a hyphen for example,
`clawc init` writes a claw.mod file that is refused. -/
theorem C87_hyphen_refused (u : Uni) {path : Str} (hp : Word path) {r0 : Nat} {rs : List Nat} (hr : u.runes (base path) = r0 :: rs)
    {r : Nat} (hm : r ∈ rs) (h1 : u.isLetter r = false) (h2 : u.isNumber r = false) (h3 : r ≠ 95) :
    parseModule u (modText path) = .err := by
  have e : modText path = modFile path none [] ++ [] := by simp [modFile, modText, tailText, show lit "\n" = [10] from rfl]
  rw [e, parse_prefix u hp no_tail (ss := []) (by simp) (by decide) (by decide), show fileLines [] = [] from rfl, run, if_pos rfl]
  have : validPackage u (base path) = .err := by
    rw [validPackage, hr]
    have hall : (rs.all fun r => u.isLetter r || u.isNumber r || r == 95) = false := by
      rw [List.all_eq_false]
      exact ⟨r, hm, by simp [h1, h2, h3]⟩
    simp only [hall]
    cases hg : Out.guard (!u.isUpper r0) with
    | ok a =>
      cases hg2 : Out.guard (u.isLetter r0) with
      | ok a => rfl
      | err => rfl
      | panic => unfold Out.guard at hg2; split at hg2 <;> cases hg2
    | err => rfl
    | panic => unfold Out.guard at hg; split at hg <;> cases hg
  simp [validModuleName, this]

example : parseModule ascii (modText (initPath (lit "github.com/me/repo") (lit "my-app"))) = .err :=
  C87_hyphen_refused ascii (path := initPath (lit "github.com/me/repo") (lit "my-app")) (r0 := 109)
    (rs := [121, 45, 97, 112, 112]) (r := 45) ⟨solid_graphic (by decide), by decide⟩ (by decide +kernel) (by decide) (by decide)
    (by decide) (by decide)

/-! ### C88: local.replace -/

theorem localValidate_nil (good : Str → Bool) {rs : List Replace} (h : rs ≠ []) : localValidate none good rs = .panic := by
  cases rs with
  | nil => exact absurd rfl h
  | cons r rs => rfl

/-- C88 is violated: no local.replace file whatsoever is read with a replacement, neither when dependencies are collected nor
when packages are compiled. -/
theorem C88_never_replaced (good : Str → Bool) (text : Bytes) (rs : List Replace) :
    (readLocalReplace good text = .ok rs → rs = []) ∧ (vendorLocalReplace good text = .ok rs → rs = []) := by
  have : parseLocal none good text = .ok rs → rs = [] := by
    intro h
    rw [parseLocal] at h
    simp only [Out.bind_eq_ok] at h
    obtain ⟨rs', -, a, h1, h⟩ := h
    cases h
    apply Classical.byContradiction
    intro hne
    rw [localValidate_nil good hne] at h1
    cases h1
  exact ⟨this, this⟩

/-- A local.replace file: a block of replacements, each with the blanks before it and its comment. -/
def localFile (rs : List (Bytes × Replace × Option Bytes)) : Bytes := lit "replace (\n" ++ rs.flatMap replaceText ++ lit ")\n"

theorem localRun_entries (rest : Bytes) : ∀ (rs : List (Bytes × Replace × Option Bytes)) (acc : List Replace),
    (∀ r ∈ rs, BlankText r.1 ∧ Word r.2.1.fromPath ∧ r.2.1.fromPath ≠ lit ")" ∧ Word r.2.1.toPath ∧ TailOk r.2.2) →
    localRun true acc (fileLines (rs.flatMap replaceText ++ rest)) = localRun true (acc ++ rs.map (·.2.1)) (fileLines rest) := by
  intro rs
  induction rs with
  | nil => intro m _; simp
  | cons r rs ih =>
    intro acc h
    obtain ⟨h1, h2, h3, h4, h5⟩ := h r (by simp)
    have hno : 10 ∉ r.1 ++ r.2.1.fromPath ++ lit " => " ++ r.2.1.toPath ++ tailText r.2.2 := by
      refine no_newline_append (no_newline_append (no_newline_append (no_newline_append (blank_no_newline h1)
        (solid_no_newline h2.1)) (by decide)) (solid_no_newline h4.1)) (tail_no_newline h5)
    rw [List.flatMap_cons, List.append_assoc, replaceText, fileLines_words hno (words_entry ⟨h1, h2, h3, h4, h5⟩),
      localRun, localStep, item_zero, Out.ok_bind, if_neg h3, replaceLine_words]
    simp only [Out.ok_bind]
    rw [ih _ fun r hr => h r (by simp [hr])]
    simp

theorem localRun_file {rs : List (Bytes × Replace × Option Bytes)} (hne : rs ≠ [])
    (h : ∀ r ∈ rs, BlankText r.1 ∧ Word r.2.1.fromPath ∧ r.2.1.fromPath ≠ lit ")" ∧ Word r.2.1.toPath ∧ TailOk r.2.2) :
    localRun false [] (fileLines (localFile rs)) = .ok (rs.map (·.2.1)) := by
  have e : localFile rs = lit "replace (" ++ [10] ++ (rs.flatMap replaceText ++ (lit ")" ++ [10] ++ [])) := by
    simp [localFile, show lit "replace (\n" = lit "replace (" ++ [10] from rfl, show lit ")\n" = lit ")" ++ [10] from rfl]
  have e1 : blockHead (lit "replace") [lit "replace", lit "("] = .ok () := by decide
  rw [e, fileLines_words (w := lit "replace") (ws := [lit "("]) (by decide) (by decide +kernel), localRun, localStep, item_zero, Out.ok_bind,
    if_neg (by decide), if_pos (by decide), if_neg (by simp), e1]
  simp only [Out.ok_bind]
  rw [localRun_entries _ _ _ h, fileLines_words (w := lit ")") (ws := []) (by decide) (by decide +kernel), localRun, localStep, item_zero,
    Out.ok_bind, if_pos rfl]
  have e2 : commentOrEOL [lit ")"] 1 = .ok () := by decide
  have e3 : Out.guard (!(([] : List Replace) ++ rs.map (·.2.1)).isEmpty) = .ok () := by
    cases rs with
    | nil => exact absurd rfl hne
    | cons r rs => rfl
  rw [e2, e3]
  simp [show fileLines [] = [] from rfl, localRun]

/-- C88 is violated: a local.replace file as it is documented makes clawc panic. -/
theorem C88_panics (good : Str → Bool) {rs : List (Bytes × Replace × Option Bytes)} (hne : rs ≠ [])
    (h : ∀ r ∈ rs, BlankText r.1 ∧ Word r.2.1.fromPath ∧ r.2.1.fromPath ≠ lit ")" ∧ Word r.2.1.toPath ∧ TailOk r.2.2) :
    readLocalReplace good (localFile rs) = .panic ∧ vendorLocalReplace good (localFile rs) = .panic := by
  have : parseLocal none good (localFile rs) = .panic := by
    rw [parseLocal, localRun_file hne h]
    simp only [Out.ok_bind]
    rw [localValidate_nil good (by simp [hne])]
    rfl
  exact ⟨this, this⟩

/-- C88 where it holds: had the check of the file the imports of the package to be compiled, the file would be read as the
replacements it lists, if all of them are imported and are good directories. -/
theorem C88_read_partial (imports : List Str) (good : Str → Bool) {rs : List (Bytes × Replace × Option Bytes)} (hne : rs ≠ [])
    (h : ∀ r ∈ rs, BlankText r.1 ∧ Word r.2.1.fromPath ∧ r.2.1.fromPath ≠ lit ")" ∧ Word r.2.1.toPath ∧ TailOk r.2.2)
    (hi : ∀ r ∈ rs, r.2.1.fromPath ∈ imports ∧ good r.2.1.toPath = true) :
    parseLocal (some imports) good (localFile rs) = .ok (rs.map (·.2.1)) := by
  have hv : ∀ (l : List Replace), (∀ r ∈ l, r.fromPath ∈ imports ∧ good r.toPath = true) →
      localValidate (some imports) good l = .ok () := by
    intro l
    induction l with
    | nil => intro _; rfl
    | cons r l ih =>
      intro hl
      have hr := hl r (by simp)
      simp [localValidate, Out.guard, hr.1, hr.2, ih fun r h => hl r (by simp [h])]
  rw [parseLocal, localRun_file hne h]
  simp only [Out.ok_bind]
  rw [hv]
  · rfl
  · intro r hr
    obtain ⟨r', hr', rfl⟩ := List.mem_map.1 hr
    exact hi r' hr'

/-- The example of the documentation. -/
def localExample : List (Bytes × Replace × Option Bytes) :=
  [(lit "    ", ⟨lit "github.com/johnsiilver/motorcycles", lit "../../directory/of/module"⟩, none)]

theorem localExample_ok : ∀ r ∈ localExample,
    BlankText r.1 ∧ Word r.2.1.fromPath ∧ r.2.1.fromPath ≠ lit ")" ∧ Word r.2.1.toPath ∧ TailOk r.2.2 := by
  intro r hr
  simp only [localExample, List.mem_singleton] at hr
  subst hr
  exact ⟨fun c hc => .inl (by revert c; decide), word_lit (by decide) (by decide), by decide,
    word_lit (by decide) (by decide), no_tail⟩

example (good : Str → Bool) : readLocalReplace good (localFile localExample) = .panic :=
  (C88_panics good (by decide) localExample_ok).1

/-! ### C89: the claw.mod file of a vendored package -/

/-- The parts of a claw.mod file that clawc writes for a vendored package, before the list of packages that may import it. -/
def writtenSects (m : Module) : List Sect :=
  .blank [] :: (if m.replace = [] then [] else [.replace (m.replace.map fun r => (lit "    ", r, none)) none none, .blank []])

/-- A module with proper words. -/
structure Proper (m : Module) : Prop where
  path : Word m.path
  replace : ∀ r ∈ m.replace, Word r.fromPath ∧ r.fromPath ≠ lit ")" ∧ Word r.toPath

theorem written_text {m : Module} (h : m.required = []) : moduleText m = modFile m.path none (writtenSects m) ++
    (if m.acls = [] then [] else lit "acls (\n" ++ m.acls.flatMap (fun a => lit "    " ++ a ++ lit "\n") ++ lit ")\n") := by
  have hf : (m.replace.map fun r => (lit "    ", r, none)).flatMap replaceText =
      m.replace.flatMap fun r => lit "    " ++ r.fromPath ++ lit " => " ++ r.toPath ++ lit "\n" := by
    rw [List.flatMap_map]
    congr 1
    funext r
    simp [replaceText, tailText, show lit "\n" = [10] from rfl]
  unfold moduleText writtenSects modFile
  rw [h, if_pos rfl]
  by_cases hr : m.replace = []
  · rw [if_pos hr, if_pos hr]
    simp [Sect.text, tailText, show lit "\n\n" = [10, 10] from rfl]
  · rw [if_neg hr, if_neg hr]
    simp only [List.flatMap_cons, List.flatMap_nil, Sect.text, hf]
    simp [tailText, show lit "\n\n" = [10, 10] from rfl, show lit ")\n\n" = lit ")" ++ [10, 10] from rfl,
      show lit "replace (\n" = lit "replace (" ++ [10] from rfl]

theorem written_ok {m : Module} (h : Proper m) : ∀ s ∈ writtenSects m, s.Ok := by
  intro s hs
  have hb : BlankText [] := fun c hc => by cases hc
  unfold writtenSects at hs
  split at hs
  · simp only [List.mem_singleton] at hs
    subst hs; exact hb
  · rename_i hr
    simp only [List.mem_cons, List.not_mem_nil, or_false] at hs
    rcases hs with rfl | rfl | rfl
    · exact hb
    · refine ⟨by simp [hr], no_tail, no_tail, fun r hr => ?_⟩
      obtain ⟨r', hr', rfl⟩ := List.mem_map.1 hr
      have := h.replace r' hr'
      have h4 : BlankText (lit "    ") := fun c hc => .inl (by revert c; decide)
      exact ⟨h4, this.1, this.2.1, this.2.2, no_tail⟩
    · exact hb

theorem written_meaning (m : Module) : replacesOf (writtenSects m) = m.replace ∧ publicOf (writtenSects m) = false ∧
    replaceBlocks (writtenSects m) ≤ 1 ∧ publicLines (writtenSects m) ≤ 1 := by
  unfold writtenSects
  split
  · rename_i h
    exact ⟨by simp [replacesOf, h], rfl, by simp [replaceBlocks], by simp [publicLines]⟩
  · refine ⟨?_, rfl, by simp [replaceBlocks], by simp [publicLines]⟩
    simp [replacesOf, List.map_map, Function.comp_def]

/-- C89 where it holds: the claw.mod file that is written for a vendored package without required versions and without rules for
who may import it is read back as it was. -/
theorem C89_read_back_partial (u : Uni) {m : Module} (hm : Proper m) (hv : validModuleName u m.path = .ok ()) (h1 : m.required = [])
    (h2 : m.acls = []) : parseModule u (moduleText m) = .ok m := by
  obtain ⟨e1, e2, e3, e4⟩ := written_meaning m
  have := C86_read_partial u hm.path hv no_tail (written_ok hm) e3 e4
  rw [written_text h1, if_pos h2, List.append_nil, this, e1, e2]
  cases m
  simp_all

/-- C89 is violated: the claw.mod file that is written for a vendored package that may be imported by anyone at all is refused. -/
theorem C89_importable_refused (u : Uni) {m : Module} (hm : Proper m) (h1 : m.required = []) (h2 : m.acls ≠ [])
    (ha : ∀ a ∈ m.acls, Word a) : parseModule u (moduleText m) = .err := by
  obtain ⟨-, -, e3, e4⟩ := written_meaning m
  obtain ⟨a, as, hac⟩ : ∃ a as, m.acls = a :: as := by
    cases h : m.acls with
    | nil => exact absurd h h2
    | cons a as => exact ⟨a, as, rfl⟩
  rw [written_text h1, if_neg h2, hac]
  have : lit "acls (\n" ++ (a :: as).flatMap (fun a => lit "    " ++ a ++ lit "\n") ++ lit ")\n" =
      lit "acls (\n" ++ lit "    " ++ a ++ [10] ++ (as.flatMap (fun a => lit "    " ++ a ++ lit "\n") ++ lit ")\n") := by
    simp [show lit "\n" = [10] from rfl]
  rw [this]
  exact C86_list_refused u hm.path no_tail (written_ok hm) e3 e4 (ind := lit "    ") (fun c hc => .inl (by revert c; decide))
    (ha a (by simp [hac])) _

-- a public package with a replacement
example : parseModule ascii (moduleText ⟨lit "a/b", [], [⟨lit "x/y", lit "z"⟩], [lit "*"]⟩) = .err :=
  C89_importable_refused ascii ⟨word_lit (by decide) (by decide), by
    intro r hr
    simp only [List.mem_singleton] at hr
    subst hr
    exact ⟨word_lit (by decide) (by decide), by decide, word_lit (by decide) (by decide)⟩⟩ rfl (by decide) (by
    intro a ha
    simp only [List.mem_singleton] at ha
    subst ha
    exact word_lit (by decide) (by decide))

example : parseModule ascii (moduleText ⟨lit "a/b", [], [⟨lit "x/y", lit "z"⟩], []⟩) = .ok ⟨lit "a/b", [], [⟨lit "x/y", lit "z"⟩], []⟩ :=
  C89_read_back_partial ascii ⟨word_lit (by decide) (by decide), by
    intro r hr
    simp only [List.mem_singleton] at hr
    subst hr
    exact ⟨word_lit (by decide) (by decide), by decide, word_lit (by decide) (by decide)⟩⟩ (by decide +kernel) rfl rfl

end Claw.Mod
