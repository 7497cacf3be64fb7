import Verif.Spec.ModFile
import Verif.Lemmas.TextForm

/-!
# Lines of claw.mod files
-/

namespace Claw.Mod

open Claw.Idl (Out Uni isComment lower)
open Claw.Text (lines words Solid BlankText lines_line words_solid words_split words_blank solid_graphic solid_no_newline)

/-- A path or another word. -/
def Word (w : Bytes) : Prop := Solid w ∧ w ≠ []

/-- A comment that ends with its line. -/
def TailOk (t : Option Bytes) : Prop := ∀ c, t = some c → 10 ∉ c

/-- A part that is well formed. -/
def Sect.Ok : Sect → Prop
  | .blank b => BlankText b
  | .comment ind c => BlankText ind ∧ 10 ∉ c
  | .replace rs t1 t2 => rs ≠ [] ∧ TailOk t1 ∧ TailOk t2 ∧
      ∀ r ∈ rs, BlankText r.1 ∧ Word r.2.1.fromPath ∧ r.2.1.fromPath ≠ lit ")" ∧ Word r.2.1.toPath ∧ TailOk r.2.2
  | .isPublic t => TailOk t

theorem word_lit {s : String} (h : ∀ c ∈ lit s, 0x21 ≤ c.toNat ∧ c.toNat ≤ 0x7E) (hne : lit s ≠ []) : Word (lit s) :=
  ⟨solid_graphic h, hne⟩

theorem no_newline_append {a b : Bytes} (ha : 10 ∉ a) (hb : 10 ∉ b) : 10 ∉ a ++ b := by
  simp [ha, hb]

theorem blank_no_newline {b : Bytes} (h : BlankText b) : 10 ∉ b := fun h2 => by
  rcases h 10 h2 with h | h <;> exact absurd h (by decide)

theorem tail_no_newline {t : Option Bytes} (h : TailOk t) : 10 ∉ tailText t := by
  cases t with
  | none => simp [tailText]
  | some c => exact no_newline_append (by decide) (h c rfl)

/-- The words of the comment at the end of a line. -/
def tailWords : Option Bytes → List Str
  | none => []
  | some c => lit "//" :: words c

theorem words_tail {w : Bytes} (hw : Word w) (t : Option Bytes) : words (w ++ tailText t) = w :: tailWords t := by
  cases t with
  | none => simp only [tailText, List.append_nil]; exact words_solid hw.1 hw.2
  | some c =>
    have : lit " // " ++ c = 32 :: (lit "//" ++ 32 :: c) := rfl
    rw [tailText, this, words_split hw.1 hw.2, words_split (solid_graphic (by decide)) (by decide), tailWords]

theorem fileLines_line {l : Bytes} (h : 10 ∉ l) (rest : Bytes) :
    fileLines (l ++ [10] ++ rest) = (if words l = [] then [] else [words l]) ++ fileLines rest := by
  rw [List.append_assoc, List.singleton_append, fileLines, lines_line h]
  cases hw : words l <;> simp [fileLines, hw]

theorem fileLines_words {l : Bytes} (h : 10 ∉ l) {w : Str} {ws : List Str} (hw : words l = w :: ws) (rest : Bytes) :
    fileLines (l ++ [10] ++ rest) = (w :: ws) :: fileLines rest := by
  rw [fileLines_line h, hw]; simp

theorem commentOrEOL_tail (ws : List Str) (t : Option Bytes) : commentOrEOL (ws ++ tailWords t) ws.length = .ok () := by
  cases t with
  | none => simp [commentOrEOL, tailWords, item, itemCount, Out.guard, isComment, Str.hasPrefix, show lit "//" = [47, 47] from rfl,
      List.isPrefixOf]
  | some c =>
    have : item (ws ++ tailWords (some c)) ws.length = .ok (lit "//") := by
      simp [item, tailWords]
    rw [commentOrEOL, this]
    simp only [Out.ok_bind]
    rw [if_pos (by decide)]

theorem item_zero (w : Str) (ws : List Str) : item (w :: ws) 0 = .ok w := by simp [item]
theorem item_one (a w : Str) (ws : List Str) : item (a :: w :: ws) 1 = .ok w := by simp [item]
theorem item_two (a b w : Str) (ws : List Str) : item (a :: b :: w :: ws) 2 = .ok w := by simp [item]

/-! ### One line -/

theorem step_comment (m : Module) (ws : List Str) : step m (lit "//" :: ws) .top = .ok (.top, m) := by
  rw [step, item_zero, Out.ok_bind, if_pos (by decide)]

theorem step_replace {m : Module} (hm : m.replace = []) (t : Option Bytes) :
    step m (lit "replace" :: lit "(" :: tailWords t) .top = .ok (.replace, m) := by
  rw [step, item_zero, Out.ok_bind, if_neg (by decide), if_neg (by decide), if_pos (by decide), if_neg (by simp [hm])]
  have := commentOrEOL_tail [lit "replace", lit "("] t
  simp only [List.cons_append, List.nil_append, List.length_cons, List.length_nil] at this
  simp [blockHead, item_zero, itemCount, Out.guard, this]

theorem step_public {m : Module} (hm : m.acls = []) (t : Option Bytes) :
    step m (lit "acls" :: lit "=" :: lit "public" :: tailWords t) .top = .ok (.top, { m with acls := [lit "*"] }) := by
  rw [step, item_zero, Out.ok_bind, if_neg (by decide), if_neg (by decide), if_neg (by decide), if_pos (by decide),
    if_neg (by simp [hm])]
  have := commentOrEOL_tail [lit "acls", lit "=", lit "public"] t
  simp only [List.cons_append, List.nil_append, List.length_cons, List.length_nil] at this
  simp [aclsHead, item_zero, item_one, item_two, itemCount, Out.guard, this, hm]

theorem replaceLine_words (a b : Str) (t : Option Bytes) : replaceLine (a :: lit "=>" :: b :: tailWords t) = .ok ⟨a, b⟩ := by
  have := commentOrEOL_tail [a, lit "=>", b] t
  simp only [List.cons_append, List.nil_append, List.length_cons, List.length_nil] at this
  simp [replaceLine, item_zero, item_one, item_two, itemCount, Out.guard, this]

theorem step_entry (m : Module) {a : Str} (ha : a ≠ lit ")") (b : Str) (t : Option Bytes) :
    step m (a :: lit "=>" :: b :: tailWords t) .replace = .ok (.replace, { m with replace := m.replace ++ [⟨a, b⟩] }) := by
  rw [step, item_zero, Out.ok_bind, if_neg ha, replaceLine_words]
  rfl

theorem step_close {m : Module} (hm : m.replace ≠ []) (t : Option Bytes) :
    step m (lit ")" :: tailWords t) .replace = .ok (.top, m) := by
  have := commentOrEOL_tail [lit ")"] t
  simp only [List.cons_append, List.nil_append, List.length_cons, List.length_nil] at this
  rw [step, item_zero, Out.ok_bind, if_pos rfl]
  simp [Out.guard, hm, this]

/-! ### Parts -/

theorem run_cons {p q : Part} {m m' : Module} {l : Line} (h : step m l p = .ok (q, m')) (ls : List Line) :
    run p m (l :: ls) = run q m' ls := by
  rw [run, h]; rfl

theorem words_entry {r : Bytes × Replace × Option Bytes} (h : BlankText r.1 ∧ Word r.2.1.fromPath ∧ r.2.1.fromPath ≠ lit ")" ∧
    Word r.2.1.toPath ∧ TailOk r.2.2) :
    words (r.1 ++ r.2.1.fromPath ++ lit " => " ++ r.2.1.toPath ++ tailText r.2.2) =
      r.2.1.fromPath :: lit "=>" :: r.2.1.toPath :: tailWords r.2.2 := by
  obtain ⟨h1, h2, -, h4, -⟩ := h
  have : r.1 ++ r.2.1.fromPath ++ lit " => " ++ r.2.1.toPath ++ tailText r.2.2 =
      r.1 ++ (r.2.1.fromPath ++ 32 :: (lit "=>" ++ 32 :: (r.2.1.toPath ++ tailText r.2.2))) := by
    simp [show lit " => " = [32, 61, 62, 32] from rfl, show lit "=>" = [61, 62] from rfl]
  rw [this, words_blank h1, words_split h2.1 h2.2, words_split (solid_graphic (by decide)) (by decide), words_tail h4]

theorem run_entries (rest : Bytes) : ∀ (rs : List (Bytes × Replace × Option Bytes)) (m : Module),
    (∀ r ∈ rs, BlankText r.1 ∧ Word r.2.1.fromPath ∧ r.2.1.fromPath ≠ lit ")" ∧ Word r.2.1.toPath ∧ TailOk r.2.2) →
    run .replace m (fileLines (rs.flatMap replaceText ++ rest)) =
      run .replace { m with replace := m.replace ++ rs.map (·.2.1) } (fileLines rest) := by
  intro rs
  induction rs with
  | nil => intro m _; simp
  | cons r rs ih =>
    intro m h
    obtain ⟨h1, h2, h3, h4, h5⟩ := h r (by simp)
    have hno : 10 ∉ r.1 ++ r.2.1.fromPath ++ lit " => " ++ r.2.1.toPath ++ tailText r.2.2 := by
      refine no_newline_append (no_newline_append (no_newline_append (no_newline_append (blank_no_newline h1)
        (solid_no_newline h2.1)) (by decide)) (solid_no_newline h4.1)) (tail_no_newline h5)
    rw [List.flatMap_cons, List.append_assoc, replaceText, fileLines_words hno (words_entry ⟨h1, h2, h3, h4, h5⟩),
      run_cons (step_entry m h3 _ _), ih _ fun r hr => h r (by simp [hr])]
    simp

/-- What a part adds. -/
def Sect.apply (m : Module) : Sect → Module
  | .replace rs _ _ => { m with replace := m.replace ++ rs.map (·.2.1) }
  | .isPublic _ => { m with acls := [lit "*"] }
  | _ => m

/-- A part that may come now. -/
def Sect.Fits (m : Module) : Sect → Prop
  | .replace .. => m.replace = []
  | .isPublic _ => m.acls = []
  | _ => True

theorem run_sect {s : Sect} (hs : s.Ok) {m : Module} (hf : s.Fits m) (rest : Bytes) :
    run .top m (fileLines (s.text ++ rest)) = run .top (s.apply m) (fileLines rest) := by
  cases s with
  | blank b =>
    have hb : words b = [] := by
      have := words_blank hs []
      rw [List.append_nil] at this
      rw [this]; rfl
    rw [Sect.text, fileLines_line (blank_no_newline hs), hb, if_pos rfl]
    rfl
  | comment ind c =>
    have hw : words (ind ++ lit "// " ++ c) = lit "//" :: words c := by
      rw [List.append_assoc, words_blank hs.1, show lit "// " ++ c = lit "//" ++ 32 :: c from rfl,
        words_split (solid_graphic (by decide)) (by decide)]
    rw [Sect.text, fileLines_words (no_newline_append (no_newline_append (blank_no_newline hs.1) (by decide)) hs.2) hw,
      run_cons (step_comment m _)]
    rfl
  | replace rs t1 t2 =>
    obtain ⟨hne, ht1, ht2, hr⟩ := hs
    have hw1 : words (lit "replace (" ++ tailText t1) = lit "replace" :: lit "(" :: tailWords t1 := by
      rw [show lit "replace (" ++ tailText t1 = lit "replace" ++ 32 :: (lit "(" ++ tailText t1) from rfl,
        words_split (solid_graphic (by decide)) (by decide), words_tail (word_lit (by decide) (by decide))]
    have hw2 : words (lit ")" ++ tailText t2) = lit ")" :: tailWords t2 := words_tail (word_lit (by decide) (by decide)) t2
    have : Sect.text (.replace rs t1 t2) ++ rest =
        (lit "replace (" ++ tailText t1) ++ [10] ++ (rs.flatMap replaceText ++ ((lit ")" ++ tailText t2) ++ [10] ++ rest)) := by
      simp [Sect.text]
    rw [this, fileLines_words (no_newline_append (by decide) (tail_no_newline ht1)) hw1, run_cons (step_replace hf t1),
      run_entries _ _ _ hr, fileLines_words (no_newline_append (by decide) (tail_no_newline ht2)) hw2,
      run_cons (step_close (by simp [hne]) t2)]
    rfl
  | isPublic t =>
    have hw : words (lit "acls = public" ++ tailText t) = lit "acls" :: lit "=" :: lit "public" :: tailWords t := by
      rw [show lit "acls = public" ++ tailText t = lit "acls" ++ 32 :: (lit "=" ++ 32 :: (lit "public" ++ tailText t)) from rfl,
        words_split (solid_graphic (by decide)) (by decide), words_split (solid_graphic (by decide)) (by decide),
        words_tail (word_lit (by decide) (by decide))]
    rw [Sect.text, fileLines_words (no_newline_append (by decide) (tail_no_newline hs)) hw, run_cons (step_public hf t)]
    rfl

/-- The room that is left for parts. -/
def Room (m : Module) (ss : List Sect) : Prop :=
  (m.replace ≠ [] → replaceBlocks ss = 0) ∧ replaceBlocks ss ≤ 1 ∧ (m.acls ≠ [] → publicLines ss = 0) ∧ publicLines ss ≤ 1

theorem run_sects (rest : Bytes) : ∀ (ss : List Sect) (m : Module), (∀ s ∈ ss, s.Ok) → Room m ss →
    run .top m (fileLines (ss.flatMap Sect.text ++ rest)) =
      run .top { m with replace := m.replace ++ replacesOf ss, acls := if publicOf ss then [lit "*"] else m.acls }
        (fileLines rest) := by
  intro ss
  induction ss with
  | nil => intro m _ _; simp [replacesOf, publicOf]
  | cons s ss ih =>
    intro m hs ⟨h1, h2, h3, h4⟩
    have hss := fun s' (h : s' ∈ ss) => hs s' (by simp [h])
    have hs0 := hs s List.mem_cons_self
    rw [List.flatMap_cons, List.append_assoc]
    cases s with
    | blank b =>
      rw [run_sect hs0 (m := m) trivial]
      exact ih m hss ⟨h1, h2, h3, h4⟩
    | comment ind c =>
      rw [run_sect hs0 (m := m) trivial]
      exact ih m hss ⟨h1, h2, h3, h4⟩
    | replace rs t1 t2 =>
      have hb : replaceBlocks (.replace rs t1 t2 :: ss) = replaceBlocks ss + 1 := by simp [replaceBlocks]
      have hp : publicLines (.replace rs t1 t2 :: ss) = publicLines ss := by simp [publicLines]
      rw [hb] at h1 h2
      rw [hp] at h3 h4
      have hm : m.replace = [] := by
        apply Classical.byContradiction
        intro h
        exact absurd (h1 h) (by omega)
      rw [run_sect hs0 (m := m) hm, ih (Sect.apply m (.replace rs t1 t2)) hss ⟨fun _ => by omega, by omega, h3, h4⟩]
      have e1 : (Sect.apply m (.replace rs t1 t2)).replace ++ replacesOf ss =
          m.replace ++ replacesOf (.replace rs t1 t2 :: ss) := List.append_assoc _ _ _
      rw [e1]
      rfl
    | isPublic t =>
      have hb : replaceBlocks (.isPublic t :: ss) = replaceBlocks ss := by simp [replaceBlocks]
      have hp : publicLines (.isPublic t :: ss) = publicLines ss + 1 := by simp [publicLines]
      rw [hb] at h1 h2
      rw [hp] at h3 h4
      have hm : m.acls = [] := by
        apply Classical.byContradiction
        intro h
        exact absurd (h3 h) (by omega)
      have h0 : publicLines ss = 0 := by omega
      have hz : publicOf ss = false := by
        clear ih h1 h2 h3 h4 hb hp hss hs hs0
        induction ss with
        | nil => rfl
        | cons s ss ih => cases s <;> simp_all [publicLines, publicOf]
      rw [run_sect hs0 (m := m) hm, ih (Sect.apply m (.isPublic t)) hss ⟨h1, h2, fun _ => h0, by omega⟩]
      simp [Sect.apply, replacesOf, publicOf, hz]

theorem moduleLine_words (p : Str) (t : Option Bytes) : moduleLine (lit "module" :: p :: tailWords t) = .ok p := by
  have := commentOrEOL_tail [lit "module", p] t
  simp only [List.cons_append, List.nil_append, List.length_cons, List.length_nil] at this
  simp [moduleLine, item_zero, item_one, itemCount, Out.guard, this]

/-- A file up to anything else. -/
theorem parse_prefix (u : Uni) {path : Str} (hp : Word path) {t : Option Bytes} (ht : TailOk t) {ss : List Sect}
    (hs : ∀ s ∈ ss, s.Ok) (h1 : replaceBlocks ss ≤ 1) (h2 : publicLines ss ≤ 1) (rest : Bytes) :
    parseModule u (modFile path t ss ++ rest) = (do
      let m ← run .top ⟨path, [], replacesOf ss, if publicOf ss then [lit "*"] else []⟩ (fileLines rest)
      validModuleName u m.path
      .ok m) := by
  have hw : words (lit "module " ++ path ++ tailText t) = lit "module" :: path :: tailWords t := by
    rw [show lit "module " ++ path ++ tailText t = lit "module" ++ 32 :: (path ++ tailText t) from by
        simp [show lit "module " = lit "module" ++ [32] from rfl],
      words_split (solid_graphic (by decide)) (by decide), words_tail hp]
  have hno : 10 ∉ lit "module " ++ path ++ tailText t :=
    no_newline_append (no_newline_append (by decide) (solid_no_newline hp.1)) (tail_no_newline ht)
  have hl : fileLines (modFile path t ss ++ rest) =
      (lit "module" :: path :: tailWords t) :: fileLines (ss.flatMap Sect.text ++ rest) := by
    rw [modFile, List.append_assoc, fileLines_words hno hw]
  rw [parseModule, hl]
  simp only [moduleLine_words, Out.ok_bind]
  rw [run_sects rest ss _ hs ⟨by simp, h1, by simp, h2⟩]
  simp

end Claw.Mod
