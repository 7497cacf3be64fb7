import Verif.Props.ModWrite

/-!
# What is refused in claw.mod, claw.work and local.replace (C86–C88)
-/

namespace Claw.Mod

open Claw.Idl (Out Uni isComment lower)
open Claw.Text (lines words Solid BlankText lines_line words_solid words_split words_blank solid_graphic solid_no_newline)

theorem extra_words {ws : List Str} {x : Str} {xs : List Str} (hx : isComment x = false) :
    commentOrEOL (ws ++ x :: xs) ws.length = .err := by
  simp [commentOrEOL, item, itemCount, Out.guard, hx]
  omega

/-! ### claw.mod -/

/-- C86: a replacement with a further word on its line, which begins no comment, is refused. -/
theorem C86_extra_refused_partial (u : Uni) {path : Str} (hp : Word path) {t : Option Bytes} (ht : TailOk t) {ss : List Sect}
    (hs : ∀ s ∈ ss, s.Ok) (h1 : replaceBlocks ss ≤ 1) (h2 : publicLines ss ≤ 1) {ind a b x : Bytes} (hi : BlankText ind)
    (ha : Word a) (ha' : a ≠ lit ")") (hb : Word b) (hx : Word x) (hx' : isComment x = false) (body : Bytes) :
    parseModule u (modFile path t ss ++
      (lit "replace (\n" ++ ind ++ a ++ lit " => " ++ b ++ lit " " ++ x ++ [10] ++ body)) = .err := by
  rw [parse_prefix u hp ht hs h1 h2]
  have hw : words (lit "replace (") = [lit "replace", lit "("] := by decide +kernel
  have hw2 : words (ind ++ a ++ lit " => " ++ b ++ lit " " ++ x) = [a, lit "=>", b, x] := by
    rw [show ind ++ a ++ lit " => " ++ b ++ lit " " ++ x = ind ++ (a ++ 32 :: (lit "=>" ++ 32 :: (b ++ 32 :: x))) by
        simp [show lit " => " = 32 :: (lit "=>" ++ [32]) from rfl, show lit " " = [32] from rfl],
      words_blank hi, words_split ha.1 ha.2, words_split (solid_graphic (by decide)) (by decide), words_split hb.1 hb.2,
      words_solid hx.1 hx.2]
  have hno : 10 ∉ ind ++ a ++ lit " => " ++ b ++ lit " " ++ x :=
    no_newline_append (no_newline_append (no_newline_append (no_newline_append (no_newline_append (blank_no_newline hi)
      (solid_no_newline ha.1)) (by decide)) (solid_no_newline hb.1)) (by decide)) (solid_no_newline hx.1)
  have hl : fileLines (lit "replace (\n" ++ ind ++ a ++ lit " => " ++ b ++ lit " " ++ x ++ [10] ++ body) =
      [lit "replace", lit "("] :: [a, lit "=>", b, x] :: fileLines body := by
    rw [show lit "replace (\n" ++ ind ++ a ++ lit " => " ++ b ++ lit " " ++ x ++ [10] ++ body =
        lit "replace (" ++ [10] ++ ((ind ++ a ++ lit " => " ++ b ++ lit " " ++ x) ++ [10] ++ body) by
      simp [show lit "replace (\n" = lit "replace (" ++ [10] from rfl], fileLines_words (by decide) hw, fileLines_words hno hw2]
  have e1 : blockHead (lit "replace") [lit "replace", lit "("] = .ok () := by decide
  generalize (if publicOf ss then [lit "*"] else []) = acls
  rw [hl, run, step, item_zero, Out.ok_bind, if_neg (by decide), if_neg (by decide), if_pos (by decide)]
  by_cases hlen : 0 < (replacesOf ss).length
  · rw [if_pos hlen]
    rfl
  · rw [if_neg hlen, e1]
    simp only [Out.ok_bind]
    have e2 := extra_words (ws := [a, lit "=>", b]) (xs := []) hx'
    simp only [List.cons_append, List.nil_append, List.length_cons, List.length_nil] at e2
    rw [run, step, item_zero, Out.ok_bind, if_neg ha', replaceLine, item_one, item_zero, item_two, e2]
    simp [Out.guard, itemCount]

example : parseModule ascii (lit "module a/b\nreplace (\n  x/y => z w\n)\n") = .err :=
  C86_extra_refused_partial ascii (path := lit "a/b") (word_lit (by decide) (by decide)) (t := none) (by intro c h; cases h)
    (ss := []) (by simp) (by decide) (by decide) (ind := lit "  ") (a := lit "x/y") (b := lit "z") (x := lit "w")
    (fun c hc => .inl (by revert c; decide)) (word_lit (by decide) (by decide)) (by decide) (word_lit (by decide) (by decide))
    (word_lit (by decide) (by decide)) (by decide) (lit ")\n")

theorem replacesOf_ne : ∀ {ss : List Sect}, (∀ s ∈ ss, s.Ok) → replaceBlocks ss ≠ 0 → replacesOf ss ≠ []
  | [], _, h => absurd rfl h
  | .blank _ :: ss, hs, h => replacesOf_ne (ss := ss) (fun s hm => hs s (by simp [hm])) h
  | .comment _ _ :: ss, hs, h => replacesOf_ne (ss := ss) (fun s hm => hs s (by simp [hm])) h
  | .isPublic _ :: ss, hs, h => replacesOf_ne (ss := ss) (fun s hm => hs s (by simp [hm])) h
  | .replace rs t1 t2 :: ss, hs, h => by
    have := (hs (.replace rs t1 t2) (by simp)).1
    simp [replacesOf, this]

theorem publicOf_of : ∀ {ss : List Sect}, publicLines ss ≠ 0 → publicOf ss = true
  | [], h => absurd rfl h
  | .blank _ :: ss, h => publicOf_of (ss := ss) h
  | .comment _ _ :: ss, h => publicOf_of (ss := ss) h
  | .replace .. :: ss, h => publicOf_of (ss := ss) h
  | .isPublic _ :: _, _ => rfl

/-- C86: a second block of replacements is refused, and so is a second line or block that says who may import the package. -/
theorem C86_second_refused_partial (u : Uni) {path : Str} (hp : Word path) {t : Option Bytes} (ht : TailOk t) {ss : List Sect}
    (hs : ∀ s ∈ ss, s.Ok) (body : Bytes) :
    (replaceBlocks ss = 1 → publicLines ss ≤ 1 → parseModule u (modFile path t ss ++ (lit "replace (\n" ++ body)) = .err) ∧
    (replaceBlocks ss ≤ 1 → publicLines ss = 1 → parseModule u (modFile path t ss ++ (lit "acls = public\n" ++ body)) = .err) := by
  constructor
  · intro h1 h2
    have hw : words (lit "replace (") = [lit "replace", lit "("] := by decide +kernel
    have : fileLines (lit "replace (\n" ++ body) = [lit "replace", lit "("] :: fileLines body :=
      fileLines_words (l := lit "replace (") (by decide) hw body
    have hne := List.length_pos_iff.2 (replacesOf_ne hs (by omega))
    rw [parse_prefix u hp ht hs (by omega) h2, this, run, step, item_zero, Out.ok_bind, if_neg (by decide), if_neg (by decide),
      if_pos (by decide), if_pos hne]
    rfl
  · intro h1 h2
    have hw : words (lit "acls = public") = [lit "acls", lit "=", lit "public"] := by decide +kernel
    have : fileLines (lit "acls = public\n" ++ body) = [lit "acls", lit "=", lit "public"] :: fileLines body :=
      fileLines_words (l := lit "acls = public") (by decide) hw body
    rw [parse_prefix u hp ht hs h1 (by omega), this, run, step, item_zero, Out.ok_bind, if_neg (by decide), if_neg (by decide),
      if_neg (by decide), if_pos (by decide), publicOf_of (by omega)]
    simp

example : parseModule ascii (lit "module a/b\nreplace (\n  x/y => z\n)\nreplace (\n c => d\n)\n") = .err :=
  (C86_second_refused_partial ascii (path := lit "a/b") (word_lit (by decide) (by decide)) (t := none) (by intro c h; cases h)
    (ss := [.replace [(lit "  ", ⟨lit "x/y", lit "z"⟩, none)] none none])
    (by
      intro s hs
      simp only [List.mem_singleton] at hs
      subst hs
      refine ⟨by simp, (fun c h => by cases h), (fun c h => by cases h), fun r hr => ?_⟩
      simp only [List.mem_singleton] at hr
      subst hr
      exact ⟨fun c hc => .inl (by revert c; decide), word_lit (by decide) (by decide), by decide,
        word_lit (by decide) (by decide), fun c h => by cases h⟩) (lit " c => d\n)\n")).1 (by decide) (by decide)

/-! ### claw.work -/

/-- C87: no claw.work file is read without a repository or a vendor directory, with an empty element in the path of the
repository, or with an absolute vendor directory. -/
theorem C87_work_checked (text : Bytes) (w : Work) (h : parseWork text = .ok w) :
    w.repo ≠ [] ∧ w.vendorDir ≠ [] ∧ Str.contains w.repo (lit "//") = false ∧ Str.hasPrefix (lit "/") w.vendorDir = false := by
  rw [parseWork] at h
  split at h
  · cases h
  · simp only [Out.bind_eq_ok] at h
    obtain ⟨_, _, _, _, _, _, _, _, _, _, w', _, _, hv, h⟩ := h
    cases h
    simp only [validWork, Out.bind_eq_ok] at hv
    obtain ⟨_, g1, _, g2, _, g3, g4⟩ := hv
    have hg : ∀ {b : Bool} {a : Unit}, Out.guard b = .ok a → b = true := by
      intro b a h
      cases b
      · cases h
      · rfl
    exact ⟨by simpa using hg g1, by simpa using hg g2, by simpa using hg g3, by simpa using hg g4⟩

example : parseWork (workText (lit "github.com/me/repo") (lit "/vendor")) = .err := by decide +kernel

/-- C87: a claw.work file with a further line after the vendor directory, which is no comment, is refused. -/
theorem C87_work_further_refused {repo dir : Str} (hr : Word repo) (hd : Word dir) {l : Bytes} (hl : 10 ∉ l) {x : Str}
    {xs : List Str} (hw : words l = x :: xs) (hx : isComment x = false) (rest : Bytes) :
    parseWork (workText repo dir ++ (l ++ [10] ++ rest)) = .err := by
  have hw1 := words_pair (word_lit (s := "repo") (by decide) (by decide)) hr
  have hw2 := words_pair (word_lit (s := "vendorDir") (by decide) (by decide)) hd
  have hl : fileLines (workText repo dir ++ (l ++ [10] ++ rest)) =
      [lit "repo", repo] :: [lit "vendorDir", dir] :: (x :: xs) :: fileLines rest := by
    have : workText repo dir ++ (l ++ [10] ++ rest) =
        (lit "repo" ++ 32 :: repo) ++ [10] ++ ([] ++ [10] ++ ((lit "vendorDir" ++ 32 :: dir) ++ [10] ++ (l ++ [10] ++ rest))) := by
      simp [workText, show lit "repo " = lit "repo" ++ [32] from rfl,
        show lit "\n\nvendorDir " = [10, 10] ++ lit "vendorDir" ++ [32] from rfl, show lit "\n" = [10] from rfl]
    rw [this, fileLines_words (pair_no_newline (word_lit (by decide) (by decide)) hr) hw1, fileLines_line (by simp),
      fileLines_words (pair_no_newline (word_lit (by decide) (by decide)) hd) hw2, fileLines_words hl hw]
    rfl
  have hc : ∀ a b : Str, commentOrEOL [a, b] 2 = .ok () := by
    intro a b
    exact commentOrEOL_tail [a, b] none
  have hrest : workRest ⟨repo, []⟩ ([lit "vendorDir", dir] :: (x :: xs) :: fileLines rest) = .err := by
    rw [workRest, item_zero, Out.ok_bind, if_neg (by decide), if_pos (by decide), if_neg (by simp)]
    simp only [hc, Out.ok_bind, item_one, itemCount]
    rw [workRest, item_zero, Out.ok_bind, if_neg (by simp [hx])]
    simp only
    rw [if_pos hd.2]
    split <;> rfl
  rw [parseWork, hl, skipComments, if_neg (show ¬isComment ([lit "repo", repo].headD []) = true by
    show ¬isComment (lit "repo") = true
    decide)]
  simp only [hc, hrest, item_zero, item_one, Out.ok_bind]
  rfl

example : parseWork (workText (lit "github.com/me/repo") (lit "v") ++ (lit "vendorDir w" ++ [10] ++ [])) = .err :=
  C87_work_further_refused (word_lit (by decide) (by decide)) (word_lit (by decide) (by decide)) (l := lit "vendorDir w") (by decide)
    (x := lit "vendorDir") (xs := [lit "w"]) (by decide +kernel) (by decide) []

/-! ### local.replace -/

/-- C88 where it holds: had the check of the file the imports of the package to be compiled, a file with a replacement for what
is not imported, or by what is no good directory, would be refused. -/
theorem C88_refused_partial (imports : List Str) (good : Str → Bool) {rs : List (Bytes × Replace × Option Bytes)} (hne : rs ≠ [])
    (h : ∀ r ∈ rs, BlankText r.1 ∧ Word r.2.1.fromPath ∧ r.2.1.fromPath ≠ lit ")" ∧ Word r.2.1.toPath ∧ TailOk r.2.2)
    (hi : ∃ r ∈ rs, r.2.1.fromPath ∉ imports ∨ good r.2.1.toPath = false) :
    parseLocal (some imports) good (localFile rs) = .err := by
  have hv : ∀ (l : List Replace), (∃ r ∈ l, r.fromPath ∉ imports ∨ good r.toPath = false) →
      localValidate (some imports) good l = .err := by
    intro l
    induction l with
    | nil => intro ⟨_, h, _⟩; cases h
    | cons r l ih =>
      intro ⟨q, hq, hb⟩
      rcases List.mem_cons.1 hq with rfl | hq
      · simp only [localValidate]
        cases hc : imports.contains q.fromPath with
        | false => rfl
        | true =>
          rcases hb with hb | hb
          · exact absurd (by simpa using hc) hb
          · rw [hb]; rfl
      · have := ih ⟨q, hq, hb⟩
        simp only [localValidate, this]
        cases imports.contains r.fromPath <;> cases good r.toPath <;> rfl
  rw [parseLocal, localRun_file hne h]
  simp only [Out.ok_bind]
  rw [hv]
  · rfl
  · obtain ⟨r, hr, hb⟩ := hi
    exact ⟨r.2.1, List.mem_map_of_mem hr, hb⟩

example : parseLocal (some [lit "github.com/johnsiilver/cars"]) (fun _ => true) (localFile localExample) = .err :=
  C88_refused_partial _ _ (by simp [localExample]) localExample_ok ⟨_, List.mem_singleton.2 rfl, .inl (by decide)⟩

example : parseLocal (some [lit "github.com/johnsiilver/motorcycles"]) (fun _ => false) (localFile localExample) = .err :=
  C88_refused_partial _ _ (by simp [localExample]) localExample_ok ⟨_, List.mem_singleton.2 rfl, .inr rfl⟩

end Claw.Mod
