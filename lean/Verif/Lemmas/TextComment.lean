import Verif.Lemmas.TextRead
import Verif.Lemmas.GoStr

/-!
# Blank lines and comments
-/

namespace Claw.Text

open Claw.Idl (FT Out)
open Claw.Tok
open Claw.Json (Scalar encodeRune decodeRune)

variable {x : Ext}

/-! ### The bytes of words are bytes of the line -/

theorem chunksN_mem : ∀ (n : Nat) (s : Bytes), ∀ p ∈ chunksN n s, ∀ c ∈ p.2, c ∈ s := by
  intro n
  induction n with
  | zero => intro s p hp; simp [chunksN] at hp
  | succ n ih =>
    intro s p hp c hc
    cases s with
    | nil => simp [chunksN] at hp
    | cons a s =>
      rw [chunksN] at hp
      · rcases List.mem_cons.1 hp with rfl | hp
        · exact List.mem_of_mem_take hc
        · exact List.mem_of_mem_drop (ih _ p hp c hc)
      · simp

theorem wordsFrom_mem : ∀ (cs : List (Nat × Bytes)) (cur : Bytes), ∀ w ∈ wordsFrom cur cs, ∀ c ∈ w,
    c ∈ cur ∨ ∃ p ∈ cs, c ∈ p.2 := by
  intro cs
  induction cs with
  | nil =>
    intro cur w hw c hc
    unfold wordsFrom addWord at hw
    split at hw
    · simp at hw
    · rw [List.mem_singleton] at hw; subst hw; exact .inl hc
  | cons p cs ih =>
    intro cur w hw c hc
    obtain ⟨r, b⟩ := p
    rw [wordsFrom] at hw
    split at hw
    · unfold addWord at hw
      split at hw
      · rcases ih [] w hw c hc with h | ⟨q, hq, h⟩
        · simp at h
        · exact .inr ⟨q, by simp [hq], h⟩
      · rcases List.mem_cons.1 hw with rfl | hw
        · exact .inl hc
        · rcases ih [] w hw c hc with h | ⟨q, hq, h⟩
          · simp at h
          · exact .inr ⟨q, by simp [hq], h⟩
    · rcases ih _ w hw c hc with h | ⟨q, hq, h⟩
      · rcases List.mem_append.1 h with h | h
        · exact .inl h
        · exact .inr ⟨(r, b), by simp, h⟩
      · exact .inr ⟨q, by simp [hq], h⟩

theorem words_mem {l w : Bytes} (hw : w ∈ words l) {c : UInt8} (hc : c ∈ w) : c ∈ l := by
  rcases wordsFrom_mem _ _ w hw c hc with h | ⟨p, hp, h⟩
  · simp at h
  · exact chunksN_mem _ _ p hp c h

theorem items_plain {l : Bytes} (h : Plain l) : ∀ w ∈ items l, Plain w := by
  intro w hw c hc
  unfold items at hw
  rcases List.mem_append.1 hw with hw | hw
  · exact h c (words_mem hw hc)
  · rw [List.mem_singleton] at hw
    subst hw
    rw [List.mem_singleton] at hc
    subst hc
    decide

/-! ### A plain line starts no raw string -/

def isRaw : Frame → Bool
  | .raw _ _ => true
  | _ => false

/-- No raw string is being read. -/
def NoRaw (fr : List Frame) : Prop := ∀ f ∈ fr, isRaw f = false

def NoRawStep (s : Step) : Prop := ∀ fr, s.2 = some fr → NoRaw fr

theorem noRaw_cons {f : Frame} {st : List Frame} (hf : isRaw f = false) (h : NoRaw st) : NoRaw (f :: st) := by
  intro g hg
  rcases List.mem_cons.1 hg with rfl | hg
  · exact hf
  · exact h g hg

theorem noRaw_tail {f : Frame} {st : List Frame} (h : NoRaw (f :: st)) : NoRaw st := fun g hg => h g (by simp [hg])

theorem inRaw_false {fr : List Frame} (h : NoRaw fr) : inRaw fr = false := by
  unfold inRaw
  split
  · have := h _ (List.mem_cons_self ..)
    simp [isRaw] at this
  · rfl

theorem noRaw_stop : NoRawStep stop := by rintro fr ⟨⟩

theorem noRaw_one {t : Option Token} {st : List Frame} (h : NoRaw st) : NoRawStep (one t st) := by
  cases t with
  | none => exact noRaw_stop
  | some t => rintro fr ⟨⟩; exact h

theorem noRaw_before {ts : List Token} {s : Step} (h : NoRawStep s) : NoRawStep (before ts s) := h

theorem noRaw_elemsLine {st : List Frame} (h : NoRaw st) : ∀ its : List Bytes, NoRawStep (elemsLine x st its) := by
  intro its
  induction its with
  | nil => rintro fr ⟨⟩; exact noRaw_cons rfl h
  | cons v vs ih =>
    rw [elemsLine]
    split
    · rintro fr ⟨⟩; exact h
    split
    · exact ih
    split
    · rintro fr ⟨⟩; exact noRaw_cons rfl (noRaw_cons rfl h)
    split
    · exact noRaw_before ih
    · exact noRaw_stop

theorem plain_not_backquote {v : Bytes} (h : Plain v) : Str.hasPrefix (lit "`") v = false := by
  cases v with
  | nil => rfl
  | cons c v => exact hasPrefix_cons_ne (h c (by simp)).1 _ _

theorem plain_not_block {v : Bytes} (h : Plain v) : Str.hasPrefix (lit "/*") v = false := by
  cases hp : Str.hasPrefix (lit "/*") v with
  | false => rfl
  | true =>
    obtain ⟨b, rfl⟩ := List.isPrefixOf_iff_prefix.1 hp
    exact absurd rfl (h 42 (by simp [show lit "/*" = [47, 42] from rfl])).2

theorem noRaw_fieldValue {st : List Frame} (h : NoRaw st) {name : Str} {raw v : Bytes} (hv : Plain v) {its : List Bytes} :
    NoRawStep (fieldValue x st name raw v its) := by
  unfold fieldValue
  rw [plain_not_backquote hv]
  split
  · exact noRaw_one h
  split
  · exact noRaw_one h
  split
  · exact noRaw_one h
  split
  · rintro fr ⟨⟩; exact noRaw_cons rfl h
  split
  · exact noRaw_before (noRaw_elemsLine h _)
  split
  · split
    · split
      · rintro fr ⟨⟩; exact noRaw_cons rfl h
      · exact noRaw_stop
    · exact noRaw_stop
  split
  · exact noRaw_one h
  rw [if_neg (by decide)]
  split
  · exact noRaw_one h
  split
  · exact noRaw_one h
  · exact noRaw_one h

theorem noRaw_fieldLine {st : List Frame} (h : NoRaw st) {raw : Bytes} (hr : Plain raw) : NoRawStep (fieldLine x st raw) := by
  have hi := items_plain hr
  unfold fieldLine
  split
  · rename_i a b its heq
    rw [heq] at hi
    split
    · split
      · exact noRaw_stop
      · exact noRaw_fieldValue h (hi b (by simp))
    split
    · split
      · rename_i v its'
        split
        · exact noRaw_stop
        · exact noRaw_fieldValue h (hi v (by simp))
      · exact noRaw_stop
    · exact noRaw_stop
  · exact noRaw_stop

theorem noRaw_entryLine {st : List Frame} (h : NoRaw st) {its : List Bytes} : NoRawStep (entryLine x st its) := by
  unfold entryLine
  split
  · split
    · exact noRaw_stop
    split
    · exact noRaw_stop
    split
    · exact noRaw_stop
    simp only
    split
    · exact noRaw_one h
    split
    · exact noRaw_one h
    split
    · exact noRaw_one h
    split
    · split <;> exact noRaw_one h
    split
    · rintro fr ⟨⟩; exact noRaw_cons rfl h
    · exact noRaw_one h
  · exact noRaw_stop

theorem noRaw_resume {st : List Frame} (h : NoRaw st) : NoRawStep (resume x st) := by
  unfold resume
  split
  · exact noRaw_elemsLine (noRaw_tail h) _
  · rintro fr ⟨⟩; exact h

theorem noRaw_step {fr : List Frame} (h : NoRaw fr) {l : Bytes} (hl : Plain l) : NoRawStep (step x l fr) := by
  unfold step
  split
  · split
    · rintro fr ⟨⟩
    · exact noRaw_fieldLine h hl
  · split
    · exact noRaw_before (noRaw_resume (noRaw_tail h))
    · exact noRaw_fieldLine h hl
  · exact noRaw_elemsLine (noRaw_tail h) _
  · split
    · rintro fr ⟨⟩; exact noRaw_tail h
    · exact noRaw_entryLine h
  · have := h _ (List.mem_cons_self ..)
    simp [isRaw] at this
  · exact noRaw_stop

/-- What plain lines do does not depend on what follows. -/
theorem run_plain : ∀ (ls : List Bytes), (∀ l ∈ ls, Plain l) → ∀ fr, NoRaw fr →
    ∃ ts, (∀ more, run x false fr (ls ++ more) = ts) ∨
      ∃ fr', NoRaw fr' ∧ ∀ more, run x false fr (ls ++ more) = ts ++ run x false fr' more := by
  intro ls
  induction ls with
  | nil => intro _ fr h; exact ⟨[], .inr ⟨fr, h, fun _ => rfl⟩⟩
  | cons l ls ih =>
    intro hp fr h
    have hl := hp l (by simp)
    have ih := ih fun l hl => hp l (by simp [hl])
    have hb : Str.hasPrefix (lit "/*") ((items l).headD []) = false := by
      cases hi : items l with
      | nil => rfl
      | cons a r => exact plain_not_block (items_plain hl a (by rw [hi]; simp))
    simp only [List.cons_append]
    by_cases h1 : items l = [[10]]
    · obtain ⟨ts, hts⟩ := ih fr h
      refine ⟨ts, ?_⟩
      have : ∀ more, run x false fr (l :: (ls ++ more)) = run x false fr (ls ++ more) := by
        intro more
        rw [run]
        simp [inRaw_false h, h1]
      simpa only [this] using hts
    by_cases h2 : Str.hasPrefix (lit "//") ((items l).headD []) = true
    · obtain ⟨ts, hts⟩ := ih fr h
      refine ⟨ts, ?_⟩
      have : ∀ more, run x false fr (l :: (ls ++ more)) = run x false fr (ls ++ more) := by
        intro more
        rw [run]
        simp only [inRaw_false h, h2, Bool.not_false, Bool.true_and, Bool.false_eq_true, if_false, if_true]
        split <;> rfl
      simpa only [this] using hts
    · have hrun : ∀ more, run x false fr (l :: (ls ++ more)) =
          match step x l fr with
          | (ts, some st') => ts ++ run x false st' (ls ++ more)
          | (ts, none) => ts := by
        intro more
        rw [run]
        have h3 : (items l == [[10]]) = false := by simpa using h1
        simp only [inRaw_false h, h3, h2, hb, Bool.not_false, Bool.true_and, Bool.false_eq_true, if_false]
        rfl
      have hs := noRaw_step (x := x) h hl
      rcases hst : step x l fr with ⟨ts, _ | fr'⟩
      · exact ⟨ts, .inl fun more => by rw [hrun, hst]⟩
      · obtain ⟨us, hus⟩ := ih fr' (hs fr' (by rw [hst]))
        refine ⟨ts ++ us, ?_⟩
        rcases hus with hus | ⟨fr'', h4, h5⟩
        · exact .inl fun more => by rw [hrun, hst]; simp only [hus]
        · exact .inr ⟨fr'', h4, fun more => by rw [hrun, hst]; simp only [h5, List.append_assoc]⟩

/-! ### Lines -/

theorem linesFrom_append : ∀ (a : Bytes) (cur : Bytes) (b : Bytes),
    linesFrom cur (a ++ [10] ++ b) = linesFrom cur (a ++ [10]) ++ lines b := by
  intro a
  induction a with
  | nil => intro cur b; simp [linesFrom, lines]
  | cons c a ih =>
    intro cur b
    simp only [List.cons_append, linesFrom]
    split
    · simp only [List.cons_append, ih]
    · exact ih _ b

theorem lines_append (a b : Bytes) : lines (a ++ [10] ++ b) = lines (a ++ [10]) ++ lines b := linesFrom_append a [] b

theorem linesFrom_mem : ∀ (a : Bytes) (cur : Bytes), ∀ l ∈ linesFrom cur a, ∀ c ∈ l, c ∈ cur ∨ c ∈ a := by
  intro a
  induction a with
  | nil => intro cur l hl; simp [linesFrom] at hl
  | cons b a ih =>
    intro cur l hl c hc
    rw [linesFrom] at hl
    split at hl
    · rcases List.mem_cons.1 hl with rfl | hl
      · exact .inl hc
      · rcases ih [] l hl c hc with h | h
        · simp at h
        · exact .inr (by simp [h])
    · rcases ih _ l hl c hc with h | h
      · rcases List.mem_append.1 h with h | h
        · exact .inl h
        · rw [List.mem_singleton] at h; subst h; exact .inr (by simp)
      · exact .inr (by simp [h])

theorem lines_plain {a : Bytes} (h : Plain a) : ∀ l ∈ lines a, Plain l := by
  intro l hl c hc
  rcases linesFrom_mem a [] l hl c hc with h' | h'
  · simp at h'
  · exact h c h'

/-! ### Filler -/

/-- Within a comment: everything up to the line with its end is skipped. -/
theorem run_block {fr : List Frame} (hfr : inRaw fr = false) (c : Bytes) : (∀ a b, c ≠ a ++ [42, 47] ++ b) →
    ∀ (r : Bytes), 10 ∉ r → ∀ (more : Bytes),
    run x true fr (lines (c ++ [42, 47] ++ r ++ [10] ++ more)) = run x false fr (lines more) := by
  by_cases h10 : 10 ∈ c
  · intro hc r hr more
    obtain ⟨l, rest, rfl, hl⟩ := split_line c h10
    have hterm : rest.length < (l ++ 10 :: rest).length := by simp; omega
    rw [show l ++ 10 :: rest ++ [42, 47] ++ r ++ [10] ++ more = l ++ 10 :: (rest ++ [42, 47] ++ r ++ [10] ++ more) by simp,
      lines_line hl, run]
    simp only [hfr, Bool.not_false, Bool.and_self, if_true]
    have h1 : Str.contains l (lit "*/") = false := by
      cases h : Str.contains l (lit "*/") with
      | false => rfl
      | true =>
        obtain ⟨a, b, hab⟩ := (contains_iff _ _).1 h
        exact absurd (show l ++ 10 :: rest = a ++ [42, 47] ++ (b ++ 10 :: rest) by
          rw [hab, show lit "*/" = [42, 47] from rfl]; simp) (hc a _)
    rw [h1]
    exact run_block hfr rest (fun a b h => hc (l ++ 10 :: a) b (by rw [h]; simp)) r hr more
  · intro _ r hr more
    rw [show c ++ [42, 47] ++ r ++ [10] ++ more = (c ++ [42, 47] ++ r) ++ 10 :: more by simp, lines_line (by simp [h10, hr]), run]
    simp only [hfr, Bool.not_false, Bool.and_self, if_true]
    rw [show Str.contains (c ++ [42, 47] ++ r) (lit "*/") = true from (contains_iff _ _).2 ⟨c, r, rfl⟩]
    rfl
termination_by c.length

theorem blankText_line {l : Bytes} (h : BlankLine l) : BlankText l := h

theorem blankLine_no_newline {l : Bytes} (h : BlankLine l) : 10 ∉ l := blank_no_newline h

theorem run_blank {fr : List Frame} (hfr : inRaw fr = false) {l : Bytes} (h : BlankLine l) (ls : List Bytes) :
    run x false fr (l :: ls) = run x false fr ls := by
  have h1 : items l = [[10]] := by
    have := words_blank (blankText_line h) []
    rw [List.append_nil] at this
    unfold items
    rw [this]
    rfl
  rw [run]
  simp [hfr, h1]

theorem items_comment {l : Bytes} (h : BlankLine l) {d : UInt8} (hd : d = 47 ∨ d = 42) (c : Bytes) :
    ∃ w, (items (l ++ [47, d] ++ c)).headD [] = 47 :: d :: w := by
  have hd1 : 0x21 ≤ d.toNat ∧ d.toNat ≤ 0x7E := by rcases hd with rfl | rfl <;> decide
  obtain ⟨w, ws, hw⟩ := words_graphic (b := 47) (c := d) (by decide) (by decide) hd1.1 hd1.2 c
  refine ⟨w, ?_⟩
  unfold items
  rw [List.append_assoc, words_blank (blankText_line h), show [47, d] ++ c = 47 :: d :: c from rfl, hw]
  rfl

theorem items_comment_ne {l : Bytes} {w : Bytes} {d : UInt8} (h : (items l).headD [] = 47 :: d :: w) :
    (items l == [[10]]) = false := by
  cases hi : (items l == [[10]]) with
  | false => rfl
  | true =>
    rw [eq_of_beq hi] at h
    simp at h

/-- Filler is skipped. -/
theorem run_filler {fr : List Frame} (hfr : inRaw fr = false) {f : Bytes} (hf : Filler f) (more : Bytes) :
    run x false fr (lines (f ++ more)) = run x false fr (lines more) := by
  cases hf with
  | blank h =>
    rename_i l
    rw [show l ++ [10] ++ more = l ++ 10 :: more by simp, lines_line (blankLine_no_newline h), run_blank hfr h]
  | line h hc =>
    rename_i l c
    rw [show l ++ [47, 47] ++ c ++ [10] ++ more = (l ++ [47, 47] ++ c) ++ 10 :: more by simp,
      lines_line (by simp [blankLine_no_newline h, hc]), run]
    obtain ⟨w, hw⟩ := items_comment h (.inl rfl) c
    have h2 : Str.hasPrefix (lit "//") (47 :: 47 :: w) = true := rfl
    simp only [hfr, items_comment_ne hw, hw, h2, Bool.not_false, Bool.and_self, Bool.and_false, Bool.false_eq_true,
      if_false, if_true]
  | block h hc hs hr =>
    rename_i l c r
    have hr := blankLine_no_newline hr
    have h1 : Str.hasPrefix (lit "//") (47 :: 42 :: ([] : Bytes)) = false := rfl
    have key : ∀ (c' : Bytes) (ls : List Bytes),
        run x false fr ((l ++ [47, 42] ++ c') :: ls) = run x (!Str.contains (l ++ [47, 42] ++ c') (lit "*/")) fr ls := by
      intro c' ls
      obtain ⟨w, hw⟩ := items_comment h (.inr rfl) c'
      have h2 : Str.hasPrefix (lit "//") (47 :: 42 :: w) = false := rfl
      have h3 : Str.hasPrefix (lit "/*") (47 :: 42 :: w) = true := rfl
      rw [run]
      simp only [hfr, items_comment_ne hw, hw, h2, h3, Bool.not_false, Bool.and_self, Bool.and_false, Bool.false_eq_true,
        if_false, if_true]
    by_cases h10 : 10 ∈ c
    · obtain ⟨l', rest, rfl, hl'⟩ := split_line c h10
      rw [show l ++ [47, 42] ++ (l' ++ 10 :: rest) ++ [42, 47] ++ r ++ [10] ++ more =
          (l ++ [47, 42] ++ l') ++ 10 :: (rest ++ [42, 47] ++ r ++ [10] ++ more) by simp,
        lines_line (by simp [blankLine_no_newline h, hl']), key]
      have h4 : Str.contains (l ++ [47, 42] ++ l') (lit "*/") = false := by
        cases h4 : Str.contains (l ++ [47, 42] ++ l') (lit "*/") with
        | false => rfl
        | true =>
          exfalso
          obtain ⟨a, b, hab⟩ := (contains_iff _ _).1 h4
          rw [show lit "*/" = [42, 47] from rfl] at hab
          rw [List.append_assoc, List.append_assoc] at hab
          rcases List.append_eq_append_iff.1 hab with ⟨a', ha', hb'⟩ | ⟨a', ha', hb'⟩
          · match a', hb' with
            | [], hb' => simp at hb'
            | [p], hb' =>
              simp only [List.cons_append, List.nil_append, List.cons.injEq] at hb'
              obtain ⟨_, _, hb'⟩ := hb'
              exact hs (b ++ 10 :: rest) (by rw [hb']; rfl)
            | p :: q :: a'', hb' =>
              simp only [List.cons_append, List.nil_append, List.cons.injEq] at hb'
              exact hc a'' (b ++ 10 :: rest) (by rw [hb'.2.2]; simp)
          · cases a' with
            | nil => simp at hb'
            | cons p a' =>
              simp only [List.cons_append, List.nil_append, List.cons.injEq] at hb'
              have : (42 : UInt8) ∈ l := by rw [ha', hb'.1]; simp
              rcases h 42 this with h | h <;> simp at h
      rw [h4]
      exact run_block hfr rest (fun a b h => hc (l' ++ 10 :: a) b (by rw [h]; simp)) r hr more
    · rw [show l ++ [47, 42] ++ c ++ [42, 47] ++ r ++ [10] ++ more = (l ++ [47, 42] ++ (c ++ [42, 47] ++ r)) ++ 10 :: more by simp,
        lines_line (by simp [blankLine_no_newline h, h10, hr]), key]
      rw [(contains_iff _ _).2 ⟨l ++ [47, 42] ++ c, r, by simp [show lit "*/" = [42, 47] from rfl]⟩]
      rfl

/-- Filler after a plain text that ends with a newline. -/
theorem tokens_filler {a : Bytes} (ha : Plain a) {f : Bytes} (hf : Filler f) (b : Bytes) :
    tokens x (a ++ [10] ++ f ++ b) = tokens x (a ++ [10] ++ b) ∧ tokens x (f ++ b) = tokens x b := by
  have h0 : NoRaw [.root] := by intro f hf; rw [List.mem_singleton] at hf; subst hf; rfl
  constructor
  · unfold tokens
    congr 1
    rw [List.append_assoc (a ++ [10]), lines_append, lines_append]
    have hp : Plain (a ++ [10]) := by
      intro c hc
      rcases List.mem_append.1 hc with hc | hc
      · exact ha c hc
      · rw [List.mem_singleton] at hc; subst hc; decide
    obtain ⟨ts, h | ⟨fr, hfr, h⟩⟩ := run_plain (x := x) _ (lines_plain hp) [.root] h0
    · rw [h, h]
    · rw [h, h, run_filler (inRaw_false hfr) hf]
  · unfold tokens
    congr 1
    exact run_filler rfl hf b

end Claw.Text
