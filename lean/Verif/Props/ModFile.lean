import Verif.Lemmas.ModFile

/-!
# What is read from claw.mod, claw.work and local.replace (C86–C89)
-/

namespace Claw.Mod

open Claw.Idl (Out Uni isComment lower)
open Claw.Text (lines words Solid BlankText lines_line words_solid words_split words_blank solid_graphic solid_no_newline)

/-- Package `unicode` for ASCII, for the examples. -/
def ascii : Uni where
  runes s := s.map (·.toNat)
  isLower r := decide (97 ≤ r) && decide (r ≤ 122)
  isUpper r := decide (65 ≤ r) && decide (r ≤ 90)
  isLetter r := (decide (97 ≤ r) && decide (r ≤ 122)) || (decide (65 ≤ r) && decide (r ≤ 90))
  isNumber r := decide (48 ≤ r) && decide (r ≤ 57)

/-! ### C86: claw.mod -/

/-- C86 where it holds: a file with the module line first, at most one block of replacements and at most one line for public
access, in any order, with blank lines and comments between them and comments at the ends of lines, gives what it says. -/
theorem C86_read_partial (u : Uni) {path : Str} (hp : Word path) (hv : validModuleName u path = .ok ()) {t : Option Bytes}
    (ht : TailOk t) {ss : List Sect} (hs : ∀ s ∈ ss, s.Ok) (h1 : replaceBlocks ss ≤ 1) (h2 : publicLines ss ≤ 1) :
    parseModule u (modFile path t ss) =
      .ok ⟨path, [], replacesOf ss, if publicOf ss then [lit "*"] else []⟩ := by
  have := parse_prefix u hp ht hs h1 h2 []
  rw [List.append_nil] at this
  rw [this, show fileLines [] = [] from rfl, run, if_pos rfl]
  simp [hv]

-- a replacement, public access, a comment and blank lines
example : parseModule ascii (lit "module a/b\n\n// who may\nacls = public // all\nreplace (\n  x/y => z\n)\n") =
    .ok ⟨lit "a/b", [], [⟨lit "x/y", lit "z"⟩], [lit "*"]⟩ :=
  C86_read_partial ascii (path := lit "a/b") (word_lit (by decide) (by decide)) (by decide +kernel) (t := none)
    (by intro c h; cases h)
    (ss := [.blank [], .comment [] (lit "who may"), .isPublic (some (lit "all")),
      .replace [(lit "  ", ⟨lit "x/y", lit "z"⟩, none)] none none])
    (by
      intro s hs
      simp only [List.mem_cons, List.not_mem_nil, or_false] at hs
      rcases hs with rfl | rfl | rfl | rfl
      · intro c hc; cases hc
      · exact ⟨(fun c hc => by cases hc), by decide⟩
      · intro c h; cases h; decide
      · refine ⟨by simp, (fun c h => by cases h), (fun c h => by cases h), fun r hr => ?_⟩
        simp only [List.mem_singleton] at hr
        subst hr
        exact ⟨fun c hc => .inl (by revert c; decide), word_lit (by decide) (by decide), by decide,
          word_lit (by decide) (by decide), fun c h => by cases h⟩)
    (by decide) (by decide)

/-- What holds of the module while a file is read. -/
def Bare (m : Module) : Prop := m.required = [] ∧ (m.acls = [] ∨ m.acls = [lit "*"])

theorem words_ne {s : Bytes} {w : Str} (h : w ∈ words s) : w ≠ [] := by
  unfold words at h
  generalize hc : Text.chunks s = cs at h
  clear hc
  suffices ∀ (cs : List (Nat × Bytes)) (cur : Bytes), w ∈ Text.wordsFrom cur cs → w ≠ [] from this cs [] h
  intro cs
  induction cs with
  | nil =>
    intro cur h
    simp only [Text.wordsFrom, Text.addWord] at h
    split at h
    · cases h
    · simp only [List.mem_singleton] at h; rw [h]; assumption
  | cons c cs ih =>
    intro cur h
    obtain ⟨r, b⟩ := c
    simp only [Text.wordsFrom] at h
    split at h
    · simp only [Text.addWord] at h
      split at h
      · exact ih [] h
      · rcases List.mem_cons.1 h with rfl | h
        · assumption
        · exact ih [] h
    · exact ih _ h

theorem fileLines_ne {s : Bytes} {l : Line} (h : l ∈ fileLines s) : ∃ w ws, l = w :: ws ∧ w ≠ [] := by
  simp only [fileLines, List.mem_filter, List.mem_map] at h
  obtain ⟨⟨b, -, rfl⟩, hne⟩ := h
  cases hw : words b with
  | nil => simp [hw] at hne
  | cons w ws => exact ⟨w, ws, rfl, words_ne (s := b) (by simp [hw])⟩

/-- Where the reading of a file can be. -/
def Reach (p : Part) (m : Module) : Prop := p ≠ .require ∧ Bare m ∧ (p = .acls → m.acls = [])

theorem step_reach {m : Module} {w : Str} {ws : List Str} (hw : w ≠ []) {p q : Part} {m' : Module} (hr : Reach p m)
    (h : step m (w :: ws) p = .ok (q, m')) : Reach q m' := by
  obtain ⟨hp, hb, ha⟩ := hr
  cases p with
  | require => exact absurd rfl hp
  | top =>
    rw [step, item_zero, Out.ok_bind] at h
    split at h
    · cases h; exact ⟨by decide, hb, by simp⟩
    split at h
    · simp at h
    split at h
    · split at h
      · cases h
      · simp only [Out.bind_eq_ok] at h
        obtain ⟨-, -, h⟩ := h
        cases h
        exact ⟨by decide, hb, by simp⟩
    split at h
    · split at h
      · cases h
      · rename_i hac
        have hac : m.acls = [] := by simpa using hac
        rw [aclsHead] at h
        simp only [Out.bind_eq_ok] at h
        obtain ⟨-, -, first, -, -, -, second, -, h⟩ := h
        split at h
        · simp only [Out.bind_eq_ok] at h
          obtain ⟨-, -, -, -, -, -, h⟩ := h
          cases h
          exact ⟨by decide, ⟨hb.1, .inr (by simp [hac])⟩, by simp⟩
        · simp only [Out.bind_eq_ok] at h
          obtain ⟨-, -, -, -, h⟩ := h
          cases h
          exact ⟨by decide, hb, fun _ => hac⟩
    · cases h
  | replace =>
    rw [step, item_zero, Out.ok_bind] at h
    split at h
    · simp only [Out.bind_eq_ok] at h
      obtain ⟨-, -, -, -, h⟩ := h
      cases h; exact ⟨by decide, hb, by simp⟩
    · simp only [Out.bind_eq_ok] at h
      obtain ⟨r, -, h⟩ := h
      cases h; exact ⟨by decide, hb, by simp⟩
  | acls =>
    have ha := ha rfl
    rw [step, item_zero, Out.ok_bind] at h
    split at h
    · simp only [Out.bind_eq_ok] at h
      obtain ⟨a, h1, -⟩ := h
      simp [ha, Out.guard] at h1
    · have hl : 0 < w.length := List.length_pos_iff.2 hw
      have : indexOf 42 w ≠ -1 ∨ indexOf 42 w ≠ (w.length : Int) - 1 := by omega
      simp only at h
      rw [if_pos this] at h
      cases h

theorem run_reach : ∀ (ls : List Line) (p : Part) (m m' : Module), (∀ l ∈ ls, ∃ w ws, l = w :: ws ∧ w ≠ []) → Reach p m →
    run p m ls = .ok m' → Bare m' := by
  intro ls
  induction ls with
  | nil =>
    intro p m m' _ hr h
    rw [run] at h
    split at h
    · cases h; exact hr.2.1
    · cases h
  | cons l ls ih =>
    intro p m m' hl hr h
    obtain ⟨w, ws, rfl, hw⟩ := hl l (by simp)
    rw [run, Out.bind_eq_ok] at h
    obtain ⟨⟨q, m2⟩, h1, h2⟩ := h
    exact ih q m2 m' (fun l h => hl l (by simp [h])) (step_reach hw hr h1) h2

/-- C86 is violated: no claw.mod file whatsoever is read with a required version, and none with a list of packages that may
import it: who may import it is nobody or everybody. -/
theorem C86_no_versions_no_lists (u : Uni) (text : Bytes) (m : Module) (h : parseModule u text = .ok m) :
    m.required = [] ∧ (m.acls = [] ∨ m.acls = [lit "*"]) := by
  rw [parseModule] at h
  split at h
  · cases h
  · rename_i l ls hl
    simp only [Out.bind_eq_ok] at h
    obtain ⟨path, -, m2, h2, -, -, h⟩ := h
    cases h
    exact run_reach ls .top ⟨path, [], [], []⟩ m
      (fun l' h' => fileLines_ne (s := text) (by rw [hl]; exact List.mem_cons_of_mem _ h')) ⟨by decide, ⟨rfl, .inl rfl⟩, by simp⟩ h2

/-- C86 is violated: a file with a require block, wherever it stands and whatever is in it, is refused. -/
theorem C86_require_refused (u : Uni) {path : Str} (hp : Word path) {t : Option Bytes} (ht : TailOk t) {ss : List Sect}
    (hs : ∀ s ∈ ss, s.Ok) (h1 : replaceBlocks ss ≤ 1) (h2 : publicLines ss ≤ 1) (body : Bytes) :
    parseModule u (modFile path t ss ++ (lit "require (\n" ++ body)) = .err := by
  rw [parse_prefix u hp ht hs h1 h2]
  have hw : words (lit "require (") = [lit "require", lit "("] := by decide +kernel
  have : fileLines (lit "require (\n" ++ body) = [lit "require", lit "("] :: fileLines body :=
    fileLines_words (l := lit "require (") (by decide) hw body
  rw [this, run, step, item_zero, Out.ok_bind, if_neg (by decide), if_pos (by decide), if_pos (Nat.zero_le _)]
  rfl

example : parseModule ascii (lit "module a/b\nrequire (\n    github.com/johnsiilver/trucks v1.1.1\n)\n") = .err :=
  C86_require_refused ascii (path := lit "a/b") (word_lit (by decide) (by decide)) (t := none) (by intro c h; cases h) (ss := [])
    (by simp) (by decide) (by decide) (lit "    github.com/johnsiilver/trucks v1.1.1\n)\n")

/-- C86 is violated: a file with a list of packages that may import it is refused, whatever the first of them is. -/
theorem C86_list_refused (u : Uni) {path : Str} (hp : Word path) {t : Option Bytes} (ht : TailOk t) {ss : List Sect}
    (hs : ∀ s ∈ ss, s.Ok) (h1 : replaceBlocks ss ≤ 1) (h2 : publicLines ss ≤ 1) {ind acl : Bytes} (hi : BlankText ind)
    (ha : Word acl) (body : Bytes) :
    parseModule u (modFile path t ss ++ (lit "acls (\n" ++ ind ++ acl ++ [10] ++ body)) = .err := by
  rw [parse_prefix u hp ht hs h1 h2]
  have hw : words (lit "acls (") = [lit "acls", lit "("] := by decide +kernel
  have hw2 : words (ind ++ acl) = [acl] := by rw [words_blank hi, words_solid ha.1 ha.2]
  have : fileLines (lit "acls (\n" ++ ind ++ acl ++ [10] ++ body) = [lit "acls", lit "("] :: [acl] :: fileLines body := by
    rw [show lit "acls (\n" ++ ind ++ acl ++ [10] ++ body = lit "acls (" ++ [10] ++ ((ind ++ acl) ++ [10] ++ body) by
      simp [show lit "acls (\n" = lit "acls (" ++ [10] from rfl], fileLines_words (by decide) hw,
      fileLines_words (no_newline_append (blank_no_newline hi) (solid_no_newline ha.1)) hw2]
  rw [this, run, step, item_zero, Out.ok_bind, if_neg (by decide), if_neg (by decide), if_neg (by decide), if_pos (by decide)]
  cases hpub : publicOf ss with
  | true => simp
  | false =>
    have hhead : ∀ m, aclsHead m [lit "acls", lit "("] = .ok (.acls, m) := by
      intro m
      simp [aclsHead, item, itemCount, commentOrEOL, Out.guard, isComment, Str.hasPrefix, show lit "//" = [47, 47] from rfl,
        show lit "(" ≠ lit "=" from by decide]
    simp only [Bool.false_eq_true, if_false, List.length_nil, ne_eq, not_true_eq_false, hhead, Out.ok_bind]
    rw [run, step, item_zero, Out.ok_bind]
    have hl : 0 < acl.length := List.length_pos_iff.2 ha.2
    split
    · simp [Out.guard]
    · have : indexOf 42 acl ≠ -1 ∨ indexOf 42 acl ≠ (acl.length : Int) - 1 := by omega
      simp only
      rw [if_pos this]
      rfl

example : parseModule ascii (lit "module a/b\nacls (\n    github.com/johnsiilver/vehicles/*\n)\n") = .err :=
  C86_list_refused ascii (path := lit "a/b") (word_lit (by decide) (by decide)) (t := none) (by intro c h; cases h) (ss := [])
    (by simp) (by decide) (by decide) (ind := lit "    ") (acl := lit "github.com/johnsiilver/vehicles/*")
    (fun c hc => .inl (by revert c; decide)) (word_lit (by decide) (by decide)) (lit ")\n")

/-- C86 is violated: a comment without a blank after its slashes is refused. -/
theorem C86_comment_refused (u : Uni) {path : Str} (hp : Word path) {t : Option Bytes} (ht : TailOk t) {ss : List Sect}
    (hs : ∀ s ∈ ss, s.Ok) (h1 : replaceBlocks ss ≤ 1) (h2 : publicLines ss ≤ 1) {c : Bytes} (hc : Word c) (body : Bytes) :
    parseModule u (modFile path t ss ++ (lit "//" ++ c ++ [10] ++ body)) = .err := by
  rw [parse_prefix u hp ht hs h1 h2]
  have hsol : Solid (lit "//" ++ c) := Text.solid_append (solid_graphic (by decide)) hc.1
  have hw : words (lit "//" ++ c) = [lit "//" ++ c] := words_solid hsol (by simp [show lit "//" = [47, 47] from rfl])
  obtain ⟨a, b, rfl⟩ : ∃ a b, c = a :: b := by
    cases c with
    | nil => exact absurd rfl hc.2
    | cons a b => exact ⟨a, b, rfl⟩
  rw [fileLines_words (solid_no_newline hsol) hw, run, step, item_zero, Out.ok_bind]
  have hpre : Str.hasPrefix (lit "//" ++ a :: b) (lit "//") = false := by
    simp [Str.hasPrefix, show lit "//" = [47, 47] from rfl, List.isPrefixOf]
  have hlow : ∀ (k : Str), k.head? ≠ some 47 → lower (lit "//" ++ a :: b) ≠ k := by
    intro k hk h
    rw [← h] at hk
    exact hk rfl
  rw [if_neg (by rw [hpre]; decide), if_neg (hlow _ (by decide)), if_neg (hlow _ (by decide)), if_neg (hlow _ (by decide))]
  rfl

example : parseModule ascii (lit "module a/b\n//comment\nacls = public\n") = .err :=
  C86_comment_refused ascii (path := lit "a/b") (word_lit (by decide) (by decide)) (t := none) (by intro c h; cases h) (ss := [])
    (by simp) (by decide) (by decide) (c := lit "comment") (word_lit (by decide) (by decide)) (lit "acls = public\n")

/-- C86 is violated: a file in which the require block comes first, as in the example of the documentation, is refused. -/
theorem C86_example_refused (u : Uni) (rest : Bytes) : parseModule u (lit "require (\n" ++ rest) = .err := by
  have : fileLines (lit "require (\n" ++ rest) = [lit "require", lit "("] :: fileLines rest :=
    fileLines_words (l := lit "require (") (by decide) (by decide +kernel) _
  have h : moduleLine [lit "require", lit "("] = .err := by decide
  rw [parseModule, this]
  simp [h]

example (u : Uni) : parseModule u (lit "require (\n" ++ lit "    github.com/johnsiilver/trucks v1.1.1
    github.com/johnsiilver/cars v0.2.5
    github.com/johnsiilver/motorcycles v1.1.0
)

replace (
    github.com/badactor/motorcycles => github.com/johnsiilver/motorcycles
)

acls (
    github.com/johnsiilver/vehicles/*
    github.com/djustice/vehicles/toyota
)
") = .err := C86_example_refused u _

end Claw.Mod
