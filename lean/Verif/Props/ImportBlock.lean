import Verif.Spec.ImportBlock
import Verif.Props.ModFile

/-!
# C130: import blocks
-/

namespace Claw.Import

open Claw.Idl (Out Uni isComment)
open Claw.Mod (Line fileLines item itemCount commentOrEOL base validPackage tailText tailWords Word TailOk fileLines_line fileLines_words
  words_tail commentOrEOL_tail item_zero item_one no_newline_append blank_no_newline tail_no_newline)
open Claw.Text (words words_blank words_split words_solid Solid BlankText solid_no_newline solid_graphic)

/-! ### Pieces -/

theorem guard_true {α : Type} (f : Unit → Out α) : (Out.guard true >>= f) = f () := rfl
theorem guard_false {α : Type} (f : Unit → Out α) : (Out.guard false >>= f) = .err := rfl

theorem dropWhile_none {s : Str} (h : 34 ∉ s) : s.dropWhile (· == 34) = s := by
  cases s with
  | nil => rfl
  | cons c s =>
    have : (c == 34) = false := by
      simp only [beq_eq_false_iff_ne]; rintro rfl; simp at h
    rw [List.dropWhile_cons, this]; rfl

theorem dropWhile_replicate (n : Nat) (s : Str) : (List.replicate n (34 : UInt8) ++ s).dropWhile (· == 34) = s.dropWhile (· == 34) := by
  induction n with
  | zero => rfl
  | succ n ih => rw [List.replicate_succ, List.cons_append, List.dropWhile_cons]; simpa using ih

theorem dropWhile_append_none {s : Str} (h : 34 ∉ s) (hs : s ≠ []) (t : Str) : (s ++ t).dropWhile (· == 34) = s ++ t := by
  cases s with
  | nil => exact absurd rfl hs
  | cons c s =>
    have : (c == 34) = false := by
      simp only [beq_eq_false_iff_ne]; rintro rfl; simp at h
    rw [List.cons_append, List.dropWhile_cons, this]; rfl

/-- All quotes around a path go. -/
theorem trimQuotes_quoted {p : Str} (h : 34 ∉ p) (a b : Nat) :
    trimQuotes (List.replicate a 34 ++ p ++ List.replicate b 34) = p := by
  rw [trimQuotes, List.append_assoc, dropWhile_replicate]
  by_cases hp : p = []
  · subst hp
    have : (List.replicate b (34 : UInt8)).dropWhile (· == 34) = [] := by
      have := dropWhile_replicate b []
      simpa using this
    simp [this]
  · rw [dropWhile_append_none h hp, List.reverse_append, List.reverse_replicate, dropWhile_replicate,
      dropWhile_none (by simpa using h), List.reverse_reverse]

theorem validImportPath_eq {p : Str} (h : 34 ∉ p) (a b : Nat) :
    validImportPath (List.replicate (a + 1) 34 ++ p ++ List.replicate (b + 1) 34) =
      if 47 ∈ p ∧ p.getLast? ≠ some 47 then .ok p else .err := by
  have h1 : Str.hasPrefix [34] (List.replicate (a + 1) 34 ++ p ++ List.replicate (b + 1) 34) = true := by
    simp [Str.hasPrefix, List.replicate_succ, List.isPrefixOf]
  have h2 : (List.replicate (a + 1) 34 ++ p ++ List.replicate (b + 1) (34 : UInt8)).getLast? = some 34 := by
    rw [List.replicate_succ' (n := b), ← List.append_assoc, List.getLast?_append]; simp
  rw [validImportPath, h1, h2]
  simp only [decide_true, Bool.and_self, guard_true, trimQuotes_quoted h]
  by_cases hs : 47 ∈ p
  · simp only [hs, decide_true, guard_true, true_and]
    by_cases hl : p.getLast? = some 47
    · simp [hl, guard_false]
    · simp [hl, guard_true]
  · simp [hs, guard_false]

theorem base_lastElem {p : Str} (h1 : 47 ∈ p) (h2 : p.getLast? ≠ some 47) : base p = lastElem p := by
  have hne : p ≠ [] := by rintro rfl; simp at h1
  obtain ⟨c, hc⟩ : ∃ c, p.getLast? = some c := by
    cases h : p.getLast? with
    | none => simp at h; exact absurd h hne
    | some c => exact ⟨c, rfl⟩
  have hc47 : c ≠ 47 := by rintro rfl; exact h2 hc
  obtain ⟨q, rfl⟩ : ∃ q, p = q ++ [c] := by
    obtain ⟨q, hq⟩ := List.getLast?_eq_some_iff.1 hc
    exact ⟨q, hq⟩
  have hb : (c == 47) = false := by simpa using hc47
  rw [base, if_neg hne, lastElem]
  simp only [List.reverse_append, List.reverse_cons, List.reverse_nil, List.nil_append, List.singleton_append, List.dropWhile_cons, hb,
    Bool.false_eq_true, if_false]
  rw [if_neg]
  rw [List.takeWhile_cons]
  simp [hc47]

theorem validPackage_iff (u : Uni) (hu : ∀ s, s ≠ [] → u.runes s ≠ []) (s : Str) (hs : s ≠ []) :
    (PackageName u s ∧ validPackage u s = .ok ()) ∨ (¬ PackageName u s ∧ validPackage u s = .err) := by
  cases hr : u.runes s with
  | nil => exact absurd hr (hu s hs)
  | cons r rs =>
    have key : PackageName u s ↔ u.isUpper r = false ∧ u.isLetter r = true ∧
        ∀ x ∈ rs, u.isLetter x = true ∨ u.isNumber x = true ∨ x = 95 := by
      unfold PackageName
      constructor
      · rintro ⟨r', rs', e, h⟩
        rw [hr] at e
        obtain ⟨rfl, rfl⟩ := List.cons.inj e
        exact h
      · intro h; exact ⟨r, rs, hr, h⟩
    rw [key, validPackage, hr]
    simp only []
    cases h1 : u.isUpper r with
    | true => right; simp [Out.guard]
    | false =>
      cases h2 : u.isLetter r with
      | false => right; simp [Out.guard]
      | true =>
        have hall : (rs.all fun r => u.isLetter r || u.isNumber r || r == 95) = true ↔
            ∀ x ∈ rs, u.isLetter x = true ∨ u.isNumber x = true ∨ x = 95 := by
          simp [List.all_eq_true, or_assoc]
        by_cases h3 : ∀ x ∈ rs, u.isLetter x = true ∨ u.isNumber x = true ∨ x = 95
        · left
          refine ⟨⟨rfl, rfl, h3⟩, ?_⟩
          rw [hall.2 h3]; rfl
        · right
          refine ⟨fun h => h3 h.2.2, ?_⟩
          rw [Bool.eq_false_iff.2 fun h => h3 (hall.1 h)]; rfl

/-! ### Lines -/

theorem withoutComment_tail (ws : List Str) (h : ∀ w ∈ ws, isComment w = false) (t : Option Bytes) :
    withoutComment (ws ++ tailWords t) = ws := by
  induction ws with
  | nil =>
    cases t with
    | none => rfl
    | some c => simp [withoutComment, tailWords, show isComment (lit "//") = true from rfl]
  | cons w ws ih =>
    have := ih fun w hw => h w (by simp [hw])
    rw [withoutComment] at this ⊢
    rw [List.cons_append, List.takeWhile_cons, h w (by simp)]
    simp [this]

def quoted (p : Str) : Str := [34] ++ p ++ [34]

theorem quoted_not_comment (p : Str) : isComment (quoted p) = false := by
  simp [isComment, quoted, Str.hasPrefix, show lit "//" = [47, 47] from rfl, List.isPrefixOf]

theorem quoted_not_close (p : Str) : quoted p ≠ lit ")" := by
  simp [quoted, show lit ")" = [41] from rfl]

theorem validImportPath_quoted {p : Str} (h : 34 ∉ p) :
    validImportPath (quoted p) = if 47 ∈ p ∧ p.getLast? ≠ some 47 then .ok p else .err := validImportPath_eq h 0 0

/-- The words of a line of the block. -/
def ImpLine.words : ImpLine → List Str
  | .blank _ => []
  | .comment _ c => lit "//" :: Claw.Text.words c
  | .imp _ none path t => quoted path :: tailWords t
  | .imp _ (some n) path t => n :: quoted path :: tailWords t

theorem quoted_word {p : Str} (h : Solid p) : Word (quoted p) := by
  refine ⟨?_, by simp [quoted]⟩
  have : quoted p = lit "\"" ++ p ++ lit "\"" := rfl
  rw [this]
  exact Claw.Text.solid_append (Claw.Text.solid_append (solid_graphic (by decide)) h) (solid_graphic (by decide))

theorem words_text {l : ImpLine} (h : l.Ok) : ∃ t, l.text = t ++ [10] ∧ 10 ∉ t ∧ Claw.Text.words t = l.words := by
  cases l with
  | blank b =>
    refine ⟨b, rfl, blank_no_newline h, ?_⟩
    have := words_blank h []
    rw [List.append_nil] at this
    rw [this]; rfl
  | comment ind c =>
    refine ⟨ind ++ lit "// " ++ c, rfl, no_newline_append (no_newline_append (blank_no_newline h.1) (by decide)) h.2, ?_⟩
    have : ind ++ lit "// " ++ c = ind ++ (lit "//" ++ 32 :: c) := by
      simp [show lit "// " = [47, 47, 32] from rfl, show lit "//" = [47, 47] from rfl]
    rw [this, words_blank h.1, words_split (solid_graphic (by decide)) (by decide)]; rfl
  | imp ind rename path t =>
    obtain ⟨h1, h2, h3, h4, h5⟩ := h
    have hq := quoted_word h3
    cases rename with
    | none =>
      refine ⟨ind ++ (quoted path ++ tailText t), by simp [ImpLine.text, renameText, quoted], ?_, ?_⟩
      · exact no_newline_append (blank_no_newline h1) (no_newline_append (solid_no_newline hq.1) (tail_no_newline h5))
      · rw [words_blank h1, words_tail hq]; rfl
    | some n =>
      obtain ⟨hn, -, -⟩ := h2 n rfl
      refine ⟨ind ++ (n ++ 32 :: (quoted path ++ tailText t)), by simp [ImpLine.text, renameText, quoted], ?_, ?_⟩
      · refine no_newline_append (blank_no_newline h1) (no_newline_append (solid_no_newline hn.1) ?_)
        intro hm
        rcases List.mem_cons.1 hm with hm | hm
        · exact absurd hm (by decide)
        · exact no_newline_append (solid_no_newline hq.1) (tail_no_newline h5) hm
      · rw [words_blank h1, words_split hn.1 hn.2, words_tail hq]; rfl

theorem fileLines_cons {l : ImpLine} (h : l.Ok) (rest : Bytes) :
    fileLines (l.text ++ rest) = (if l.words = [] then [] else [l.words]) ++ fileLines rest := by
  obtain ⟨t, e, hno, hw⟩ := words_text h
  rw [e, fileLines_line hno, hw]

/-- What a line does to the imports so far: nothing, an import more, or an error. -/
theorem entryLine_imp (u : Uni) (hu : ∀ s, s ≠ [] → u.runes s ≠ []) (m : List Entry) {ind : Bytes} {rename : Option Str} {path : Str}
    {t : Option Bytes} (h : (ImpLine.imp ind rename path t).Ok) :
    ((ImpLine.imp ind rename path t).Good u ∧ rename.getD (lastElem path) ∉ m.map (·.name) ∧
      entryLine u m (ImpLine.imp ind rename path t).words = .ok (m ++ [⟨path, rename.getD (lastElem path)⟩])) ∨
    (¬ ((ImpLine.imp ind rename path t).Good u ∧ rename.getD (lastElem path) ∉ m.map (·.name)) ∧
      entryLine u m (ImpLine.imp ind rename path t).words = .err) := by
  obtain ⟨-, h2, -, h4, -⟩ := h
  by_cases hp : 47 ∈ path ∧ path.getLast? ≠ some 47
  · cases rename with
    | none =>
      have hw : withoutComment (quoted path :: tailWords t) = [quoted path] :=
        withoutComment_tail [quoted path] (by simp [quoted_not_comment]) t
      have he : entryLine u m (ImpLine.imp ind none path t).words = add m ⟨path, lastElem path⟩ := by
        rw [ImpLine.words, entryLine, hw]
        simp only [item_zero, Out.ok_bind, validImportPath_quoted h4, if_pos hp, base_lastElem hp.1 hp.2]
      rw [he, add]
      simp only [Option.getD_none]
      by_cases hn : lastElem path ∈ m.map (·.name)
      · exact .inr ⟨fun h => h.2 hn, if_pos hn⟩
      · exact .inl ⟨⟨by simp, hp⟩, hn, if_neg hn⟩
    | some n =>
      obtain ⟨hwn, hnc, hcm⟩ := h2 n rfl
      have hw : withoutComment (n :: quoted path :: tailWords t) = [n, quoted path] :=
        withoutComment_tail [n, quoted path] (by simp [quoted_not_comment, hcm]) t
      have he : entryLine u m (ImpLine.imp ind (some n) path t).words = (validPackage u n >>= fun _ => add m ⟨path, n⟩) := by
        rw [ImpLine.words, entryLine, hw]
        simp only [item_zero, item_one, Out.ok_bind, validImportPath_quoted h4, if_pos hp]
      rw [he]
      simp only [Option.getD_some]
      rcases validPackage_iff u hu n hwn.2 with ⟨hv, e⟩ | ⟨hv, e⟩
      · rw [e, Out.ok_bind, add]
        by_cases hn : n ∈ m.map (·.name)
        · exact .inr ⟨fun h => h.2 hn, if_pos hn⟩
        · exact .inl ⟨⟨fun n' hn' => by cases hn'; exact hv, hp⟩, hn, if_neg hn⟩
      · rw [e]
        exact .inr ⟨fun h => hv (h.1.1 n rfl), rfl⟩
  · right
    refine ⟨fun h => hp h.1.2, ?_⟩
    cases rename with
    | none =>
      have hw : withoutComment (quoted path :: tailWords t) = [quoted path] :=
        withoutComment_tail [quoted path] (by simp [quoted_not_comment]) t
      rw [ImpLine.words, entryLine, hw]
      simp only [item_zero, Out.ok_bind, validImportPath_quoted h4, if_neg hp]; rfl
    | some n =>
      obtain ⟨hwn, hnc, hcm⟩ := h2 n rfl
      have hw : withoutComment (n :: quoted path :: tailWords t) = [n, quoted path] :=
        withoutComment_tail [n, quoted path] (by simp [quoted_not_comment, hcm]) t
      rw [ImpLine.words, entryLine, hw]
      simp only [item_zero, item_one, Out.ok_bind, validImportPath_quoted h4, if_neg hp]
      rcases validPackage_iff u hu n hwn.2 with ⟨-, e⟩ | ⟨-, e⟩ <;> rw [e] <;> rfl

theorem loop_close (u : Uni) (m : List Entry) (t : Option Bytes) (rest : List Line) :
    loop u m ((lit ")" :: tailWords t) :: rest) = .ok (m, rest) := by
  have := commentOrEOL_tail [lit ")"] t
  simp only [List.cons_append, List.nil_append, List.length_cons, List.length_nil] at this
  rw [loop, item_zero, Out.ok_bind, if_pos rfl, this]; rfl

theorem loop_line (u : Uni) (m : List Entry) {w : Str} (hw : w ≠ lit ")") (ws : List Str) (rest : List Line) :
    loop u m ((w :: ws) :: rest) = (entryLine u m (w :: ws) >>= fun m => loop u m rest) := by
  rw [loop, item_zero, Out.ok_bind, if_neg hw]

theorem entryLine_comment (u : Uni) (m : List Entry) (ws : List Str) : entryLine u m (lit "//" :: ws) = .err := by
  have : withoutComment (lit "//" :: ws) = [] := by
    rw [withoutComment, List.takeWhile_cons, show isComment (lit "//") = true from rfl]; rfl
  rw [entryLine, this]

theorem imp_words {ind : Bytes} {rename : Option Str} {path : Str} {t : Option Bytes} (h : (ImpLine.imp ind rename path t).Ok) :
    ∃ w ws, (ImpLine.imp ind rename path t).words = w :: ws ∧ w ≠ lit ")" := by
  cases rename with
  | none => exact ⟨_, _, rfl, quoted_not_close _⟩
  | some n => exact ⟨_, _, rfl, (h.2.1 n rfl).2.1⟩

/-- All lines of the block that can be, one after the other, with new names. -/
def Fits (u : Uni) (m : List Entry) (ls : List ImpLine) : Prop :=
  (∀ l ∈ ls, l.Good u) ∧ (∀ l ∈ ls, l.isComment = false) ∧ ((entries ls).map (·.name)).Nodup ∧
    ∀ e ∈ entries ls, e.name ∉ m.map (·.name)

theorem loop_lines (u : Uni) (hu : ∀ s, s ≠ [] → u.runes s ≠ []) (t2 : Option Bytes) (ht : TailOk t2) (rest : Bytes) :
    ∀ (ls : List ImpLine) (m : List Entry), (∀ l ∈ ls, l.Ok) →
    (Fits u m ls ∧ loop u m (fileLines (ls.flatMap ImpLine.text ++ (lit ")" ++ tailText t2 ++ [10] ++ rest))) =
      .ok (m ++ entries ls, fileLines rest)) ∨
    (¬ Fits u m ls ∧ loop u m (fileLines (ls.flatMap ImpLine.text ++ (lit ")" ++ tailText t2 ++ [10] ++ rest))) = .err) := by
  intro ls
  induction ls with
  | nil =>
    intro m _
    refine .inl ⟨⟨by simp, by simp, by simp [entries], by simp [entries]⟩, ?_⟩
    have hw : Word (lit ")") := ⟨solid_graphic (by decide), by decide⟩
    rw [List.flatMap_nil, List.nil_append,
      fileLines_words (no_newline_append (by decide) (tail_no_newline ht)) (words_tail hw t2), loop_close]
    simp [entries]
  | cons l ls ih =>
    intro m h
    have hl := h l (by simp)
    have hls := fun l' hl' => h l' (List.mem_cons_of_mem l hl')
    rw [List.flatMap_cons, List.append_assoc, fileLines_cons hl]
    cases l with
    | blank b =>
      have he : entries (.blank b :: ls) = entries ls := rfl
      have hf : Fits u m (.blank b :: ls) ↔ Fits u m ls := by
        simp [Fits, he, ImpLine.Good, ImpLine.isComment]
      rw [hf, he, if_pos (show (ImpLine.blank b).words = [] from rfl), List.nil_append]
      exact ih m hls
    | comment ind c =>
      right
      refine ⟨fun hf => absurd (hf.2.1 _ (List.mem_cons_self ..)) (by simp [ImpLine.isComment]), ?_⟩
      rw [if_neg (by simp [ImpLine.words])]
      simp only [ImpLine.words, List.singleton_append]
      rw [loop_line u m (by decide), entryLine_comment]; rfl
    | imp ind rename path t =>
      obtain ⟨w, ws, hws, hwc⟩ := imp_words hl
      have he : entries (.imp ind rename path t :: ls) = ⟨path, rename.getD (lastElem path)⟩ :: entries ls := rfl
      rw [if_neg (by rw [hws]; simp), List.singleton_append, hws, loop_line u m hwc, ← hws]
      rcases entryLine_imp u hu m hl with ⟨hg, hn, e⟩ | ⟨hg, e⟩
      · rw [e, Out.ok_bind]
        have hf : Fits u m (.imp ind rename path t :: ls) ↔ Fits u (m ++ [⟨path, rename.getD (lastElem path)⟩]) ls := by
          simp only [Fits, he, List.map_cons, List.nodup_cons, List.forall_mem_cons, List.map_append, List.map_nil, List.mem_append,
            List.mem_singleton, not_or]
          constructor
          · rintro ⟨⟨_, a⟩, ⟨_, b⟩, ⟨c, d⟩, _, f⟩
            exact ⟨a, b, d, fun e he => ⟨f e he, fun hx => c (List.mem_map.2 ⟨e, he, hx⟩)⟩⟩
          · rintro ⟨a, b, d, f⟩
            refine ⟨⟨hg, a⟩, ⟨rfl, b⟩, ⟨?_, d⟩, hn, fun e he => (f e he).1⟩
            intro hx
            obtain ⟨e, he, hx⟩ := List.mem_map.1 hx
            exact (f e he).2 hx
        rw [hf, he]
        have := ih (m ++ [⟨path, rename.getD (lastElem path)⟩]) hls
        simpa using this
      · right
        refine ⟨fun hf => hg ⟨hf.1 _ (List.mem_cons_self ..), hf.2.2.2 _ (by rw [he]; exact List.mem_cons_self ..)⟩, ?_⟩
        rw [e]; rfl

/-- The whole block. -/
theorem block_eq (u : Uni) (hu : ∀ s, s ≠ [] → u.runes s ≠ []) {ls : List ImpLine} (h : ∀ l ∈ ls, l.Ok) {t1 t2 : Option Bytes}
    (h1 : TailOk t1) (h2 : TailOk t2) (rest : Bytes) :
    ((Good u ls ∧ ∀ l ∈ ls, l.isComment = false) ∧
      importBlock u (fileLines (blockText ls t1 t2 ++ rest)) = .ok (entries ls, fileLines rest)) ∨
    (¬ (Good u ls ∧ ∀ l ∈ ls, l.isComment = false) ∧ importBlock u (fileLines (blockText ls t1 t2 ++ rest)) = .err) := by
  have hw : Word (lit "(") := ⟨solid_graphic (by decide), by decide⟩
  have e : blockText ls t1 t2 ++ rest = (lit "import" ++ 32 :: (lit "(" ++ tailText t1)) ++ [10] ++
      (ls.flatMap ImpLine.text ++ (lit ")" ++ tailText t2 ++ [10] ++ rest)) := by
    simp [blockText, show lit "import (" = lit "import" ++ 32 :: lit "(" from rfl]
  have hno : 10 ∉ lit "import" ++ 32 :: (lit "(" ++ tailText t1) := by
    have : lit "import" ++ 32 :: (lit "(" ++ tailText t1) = lit "import (" ++ tailText t1 := by
      simp [show lit "import (" = lit "import" ++ 32 :: lit "(" from rfl]
    rw [this]; exact no_newline_append (by decide) (tail_no_newline h1)
  have hwords : words (lit "import" ++ 32 :: (lit "(" ++ tailText t1)) = lit "import" :: lit "(" :: tailWords t1 := by
    rw [words_split (solid_graphic (by decide)) (by decide), words_tail hw]
  have hc := commentOrEOL_tail [lit "import", lit "("] t1
  simp only [List.cons_append, List.nil_append, List.length_cons, List.length_nil] at hc
  have hblock : importBlock u (fileLines (blockText ls t1 t2 ++ rest)) =
      (loop u [] (fileLines (ls.flatMap ImpLine.text ++ (lit ")" ++ tailText t2 ++ [10] ++ rest))) >>= fun r =>
        Out.guard (!r.1.isEmpty) >>= fun _ => .ok r) := by
    rw [e, fileLines_words hno hwords, importBlock]
    simp only [item_one, Out.ok_bind, itemCount, List.length_cons, hc]
    have h3 : 3 ≤ (tailWords t1).length + 1 + 1 + 1 := by omega
    simp only [h3, decide_true, guard_true]
  rw [hblock]
  have hfit : Fits u [] ls ↔ (∀ l ∈ ls, l.Good u) ∧ (∀ l ∈ ls, l.isComment = false) ∧ ((entries ls).map (·.name)).Nodup := by
    simp [Fits]
  rcases loop_lines u hu t2 h2 rest ls [] h with ⟨hf, el⟩ | ⟨hf, el⟩
  · rw [el, Out.ok_bind, List.nil_append]
    rw [hfit] at hf
    by_cases hne : entries ls = []
    · right
      refine ⟨fun hg => hg.1.1 hne, ?_⟩
      rw [hne]; rfl
    · left
      refine ⟨⟨⟨hne, hf.1, hf.2.2⟩, hf.2.1⟩, ?_⟩
      have : (!(entries ls).isEmpty) = true := by simp [hne]
      simp only [this, guard_true]
  · right
    rw [el]
    exact ⟨fun hg => hf (hfit.2 ⟨hg.1.2.1, hg.2, hg.1.2.2⟩), rfl⟩

/-! ### C130 -/

/-- **C130 (a)** A block that can be, in which there are no lines with nothing but a comment, gives exactly the imports it lists, and the rest
of the file is left. Missing for the full statement: lines with comments (`C130_comment`). -/
theorem C130_read_partial (u : Uni) (hu : ∀ s, s ≠ [] → u.runes s ≠ []) {ls : List ImpLine} (h : ∀ l ∈ ls, l.Ok) {t1 t2 : Option Bytes}
    (h1 : TailOk t1) (h2 : TailOk t2) (hg : Good u ls) (hc : ∀ l ∈ ls, l.isComment = false) (rest : Bytes) :
    importBlock u (fileLines (blockText ls t1 t2 ++ rest)) = .ok (entries ls, fileLines rest) := by
  rcases block_eq u hu h h1 h2 rest with ⟨-, e⟩ | ⟨hn, -⟩
  · exact e
  · exact absurd ⟨hg, hc⟩ hn

/-- **C130 (b)** A block that cannot be is refused: nothing is imported, a name is given twice, a rename is no name of a package, or a path
has no slash or ends in one. -/
theorem C130_refused (u : Uni) (hu : ∀ s, s ≠ [] → u.runes s ≠ []) {ls : List ImpLine} (h : ∀ l ∈ ls, l.Ok) {t1 t2 : Option Bytes}
    (h1 : TailOk t1) (h2 : TailOk t2) (hg : ¬ Good u ls) (rest : Bytes) :
    importBlock u (fileLines (blockText ls t1 t2 ++ rest)) = .err := by
  rcases block_eq u hu h h1 h2 rest with ⟨hn, -⟩ | ⟨-, e⟩
  · exact absurd hn.1 hg
  · exact e

/-- **C130 (b')** Whatever the text, a block that is read starts with a line `import (`, with nothing but a comment behind it. -/
theorem C130_open {u : Uni} {l : Line} {ls : List Line} {r : List Entry × List Line} (h : importBlock u (l :: ls) = .ok r) :
    ∃ w rest, l = w :: lit "(" :: rest ∧ (rest = [] ∨ ∃ c more, rest = c :: more ∧ isComment c = true) := by
  simp only [importBlock, Out.bind_eq_ok] at h
  obtain ⟨_, h0, s, h1, _, h2, _, h3, -⟩ := h
  have h0' : 3 ≤ itemCount l := by
    unfold Out.guard at h0
    split at h0
    · next e => simpa using e
    · cases h0
  have h2' : s = lit "(" := by
    unfold Out.guard at h2
    split at h2
    · next e => simpa using e
    · cases h2
  subst h2'
  match l, h0' with
  | [], h0' => simp [itemCount] at h0'
  | [a], h0' => simp [itemCount] at h0'
  | a :: b :: rest, _ =>
    simp only [item, List.length_cons, List.getElem_cons_succ, List.getElem_cons_zero] at h1
    rw [dif_pos (by omega)] at h1
    cases h1
    refine ⟨a, rest, rfl, ?_⟩
    cases rest with
    | nil => exact .inl rfl
    | cons c more =>
      refine .inr ⟨c, more, rfl, ?_⟩
      simp only [commentOrEOL, item, List.length_cons, Out.bind_eq_ok] at h3
      obtain ⟨s, h3, h4⟩ := h3
      rw [dif_pos (by omega)] at h3
      simp only [List.getElem_cons_succ, List.getElem_cons_zero, Out.ok.injEq] at h3
      subst h3
      split at h4
      · next e => exact e
      · simp [itemCount, Out.guard] at h4

/-- A block that is read. -/
example : importBlock Claw.Mod.ascii [[lit "import", lit "(", lit "// x"], [lit "\"a/b\""], [lit ")"]] = .ok ([⟨lit "a/b", lit "b"⟩], []) := by
  decide +kernel

/-- **C130 (c)** A name is found exactly if it is in the block, with the path that is given for it. -/
theorem C130_found {u : Uni} {ls : List ImpLine} (hg : Good u ls) (n p : Str) :
    byName (entries ls) n = some ⟨p, n⟩ ↔ ⟨p, n⟩ ∈ entries ls := by
  have key : ∀ (m : List Entry), (m.map (·.name)).Nodup → (byName m n = some ⟨p, n⟩ ↔ ⟨p, n⟩ ∈ m) := by
    intro m
    induction m with
    | nil => simp [byName]
    | cons e m ih =>
      intro hnd
      rw [List.map_cons, List.nodup_cons] at hnd
      rw [byName, List.find?_cons, List.mem_cons]
      by_cases he : e.name = n
      · simp only [he, decide_true]
        constructor
        · intro h; exact .inl (Option.some.inj h).symm
        · rintro (h | h)
          · rw [h]
          · exact absurd (List.mem_map.2 ⟨_, h, he.symm⟩) hnd.1
      · simp only [he, decide_false]
        have := ih hnd.2
        rw [byName] at this
        rw [this]
        constructor
        · exact .inr
        · rintro (h | h)
          · rw [← h] at he; exact absurd rfl he
          · exact h
  exact key _ hg.2.2

/-- **C130 is violated** A block with a line that has nothing but a comment is refused. -/
theorem C130_comment (u : Uni) (hu : ∀ s, s ≠ [] → u.runes s ≠ []) {ls : List ImpLine} (h : ∀ l ∈ ls, l.Ok) {t1 t2 : Option Bytes}
    (h1 : TailOk t1) (h2 : TailOk t2) (hc : ∃ l ∈ ls, l.isComment = true) (rest : Bytes) :
    importBlock u (fileLines (blockText ls t1 t2 ++ rest)) = .err := by
  obtain ⟨l, hl, e⟩ := hc
  rcases block_eq u hu h h1 h2 rest with ⟨hn, -⟩ | ⟨-, e⟩
  · exact absurd (hn.2 l hl) (by simp [e])
  · exact e

/-- **C130 is violated** Any number of quotes around a path is taken for one. -/
theorem C130_quotes {p : Str} (h : 34 ∉ p) (hp : 47 ∈ p ∧ p.getLast? ≠ some 47) (a b : Nat) :
    validImportPath (List.replicate (a + 1) 34 ++ p ++ List.replicate (b + 1) 34) = .ok p := by
  rw [validImportPath_eq h, if_pos hp]

/-- **C130 is violated** A name that is taken from a path need not be a name of a package. -/
theorem C130_unchecked : ∃ ls : List ImpLine, (∀ l ∈ ls, l.Ok) ∧ Good Claw.Mod.ascii ls ∧
    ∃ e ∈ entries ls, ¬ PackageName Claw.Mod.ascii e.name := by
  refine ⟨[.imp [] none (lit "a.b/c-d") none], ?_, ⟨by decide, ?_, by decide⟩, ⟨lit "a.b/c-d", lit "c-d"⟩, by decide, ?_⟩
  · intro l hl
    rw [List.mem_singleton] at hl
    subst hl
    exact ⟨by intro c hc; simp at hc, by simp, solid_graphic (by decide), by decide, by intro c hc; simp at hc⟩
  · intro l hl
    rw [List.mem_singleton] at hl
    subst hl
    exact ⟨by simp, by decide, by decide⟩
  · rintro ⟨r, rs, e, -, -, h⟩
    have : r = 99 ∧ rs = [45, 100] := by
      have e' : Claw.Mod.ascii.runes (lit "c-d") = [99, 45, 100] := rfl
      rw [e'] at e
      exact ⟨(List.cons.inj e).1.symm, (List.cons.inj e).2.symm⟩
    obtain ⟨rfl, rfl⟩ := this
    have := h 45 (by simp)
    revert this
    decide

/-! ### A case -/

def demo : List ImpLine :=
  [.imp (lit "  ") none (lit "github.com/a/cars") none, .blank [32], .imp [9] (some (lit "lorries")) (lit "github.com/a/trucks") (some (lit "by road"))]

theorem demo_ok : ∀ l ∈ demo, l.Ok := by
  intro l hl
  simp only [demo, List.mem_cons, List.not_mem_nil, or_false] at hl
  rcases hl with rfl | rfl | rfl
  · exact ⟨by unfold BlankText; decide, by simp, solid_graphic (by decide), by decide, by intro c hc; simp at hc⟩
  · unfold ImpLine.Ok BlankText; decide
  · refine ⟨by unfold BlankText; decide, ?_, solid_graphic (by decide), by decide, ?_⟩
    · rintro n ⟨⟩
      exact ⟨⟨solid_graphic (by decide), by decide⟩, by decide, by decide⟩
    · rintro c ⟨⟩; decide

theorem demo_good : Good Claw.Mod.ascii demo := by
  refine ⟨by decide, ?_, by decide⟩
  intro l hl
  simp only [demo, List.mem_cons, List.not_mem_nil, or_false] at hl
  rcases hl with rfl | rfl | rfl
  · exact ⟨by simp, by decide, by decide⟩
  · trivial
  · refine ⟨?_, by decide, by decide⟩
    rintro n ⟨⟩
    exact ⟨108, _, rfl, by decide, by decide, by decide⟩

theorem ascii_runes (s : Str) (h : s ≠ []) : Claw.Mod.ascii.runes s ≠ [] := by
  show s.map _ ≠ []
  simpa using h

example : importBlock Claw.Mod.ascii (fileLines (blockText demo none (some (lit "done")) ++ lit "Struct X {\n")) =
    .ok ([⟨lit "github.com/a/cars", lit "cars"⟩, ⟨lit "github.com/a/trucks", lit "lorries"⟩], fileLines (lit "Struct X {\n")) :=
  C130_read_partial _ ascii_runes demo_ok (by intro c hc; simp at hc) (by rintro c ⟨⟩; decide) demo_good (by decide) _

example : byName (entries demo) (lit "lorries") = some ⟨lit "github.com/a/trucks", lit "lorries"⟩ :=
  (C130_found demo_good _ _).2 (by decide)

example : importBlock Claw.Mod.ascii (fileLines (blockText [] none none ++ [])) = .err :=
  C130_refused _ ascii_runes (by simp) (by intro c hc; simp at hc) (by intro c hc; simp at hc) (fun h => h.1 rfl) _

example : importBlock Claw.Mod.ascii (fileLines (blockText (.comment [] (lit "cars") :: demo) none none ++ [])) = .err := by
  refine C130_comment _ ascii_runes ?_ (by intro c hc; simp at hc) (by intro c hc; simp at hc) ⟨_, List.mem_cons_self .., rfl⟩ _
  intro l hl
  rcases List.mem_cons.1 hl with rfl | hl
  · exact ⟨by intro c hc; simp at hc, by decide⟩
  · exact demo_ok l hl

example : validImportPath (lit "\"\"\"a/b\"\"") = .ok (lit "a/b") := C130_quotes (p := lit "a/b") (by decide) (by decide) 2 1

end Claw.Import
