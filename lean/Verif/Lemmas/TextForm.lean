import Verif.Lemmas.TextBack
import Verif.Lemmas.TextComment

/-!
# Hand-written text: lists, maps and strings over lines
-/

namespace Claw.Text

open Claw.Idl (FT Out numeral)
open Claw.Tok
open Claw.Json (Scalar encodeRune runes repaired Utf8)

set_option linter.unusedSimpArgs false

/-! ### Words with blanks -/

theorem words_row : ∀ (ws : List Bytes), (∀ w ∈ ws, Solid w ∧ w ≠ []) → words (row ws) = ws := by
  intro ws
  induction ws with
  | nil => intro _; rfl
  | cons w ws ih =>
    intro h
    obtain ⟨hs, hne⟩ := h w (by simp)
    have ih := ih fun w hw => h w (by simp [hw])
    have hrow : row (w :: ws) = [32] ++ (w ++ row ws) := by simp [row]
    rw [hrow, words_blank (by intro c hc; simp at hc; exact .inl hc)]
    cases ws with
    | nil => simp only [row, List.flatMap_nil, List.append_nil]; exact words_solid hs hne
    | cons v vs =>
      rw [show w ++ row (v :: vs) = w ++ 32 :: (v ++ row vs) by simp [row], words_split hs hne]
      have : words (row (v :: vs)) = words (v ++ row vs) := by
        rw [show row (v :: vs) = [32] ++ (v ++ row vs) by simp [row],
          words_blank (by intro c hc; simp at hc; exact .inl hc)]
      rw [← this, ih]

theorem row_no_newline {ws : List Bytes} (h : ∀ w ∈ ws, Solid w ∧ w ≠ []) : 10 ∉ row ws := by
  unfold row
  intro hm
  obtain ⟨w, hw, hc⟩ := List.mem_flatMap.1 hm
  rcases List.mem_cons.1 hc with h1 | h1
  · exact absurd h1 (by decide)
  · exact solid_no_newline (h w hw).1 h1

theorem row_append (a b : List Bytes) : row (a ++ b) = row a ++ row b := by simp [row]

/-- What is before the first word does not matter. -/
theorem words_after {w : Bytes} (hs : Solid w) (hne : w ≠ []) {ws : List Bytes} (h : ∀ w ∈ ws, Solid w ∧ w ≠ []) :
    words (w ++ row ws) = w :: ws := by
  have := words_row (w :: ws) (by
    intro v hv
    rcases List.mem_cons.1 hv with rfl | hv
    · exact ⟨hs, hne⟩
    · exact h v hv)
  rw [show row (w :: ws) = [32] ++ (w ++ row ws) by simp [row], words_blank (by intro c hc; simp at hc; exact .inl hc)] at this
  exact this

/-! ### Items of a list -/

/-- The word `w` in a list gives the token `t`. -/
structure Item (x : Ext) (w : Bytes) (t : Token) : Prop where
  solid : Solid w
  ne : w ≠ []
  head : ∀ c r, w = c :: r → c ≠ 93 ∧ c ≠ 47 ∧ c ≠ 44 ∧ c ≠ 123
  tok : elemTok x w = some t
  kind : t.kind = .field

theorem elemsLine_items {x : Ext} {st : List Frame} : ∀ (ps : List (Bytes × Token)), (∀ p ∈ ps, Item x p.1 p.2) → ∀ more,
    elemsLine x st (ps.map (·.1) ++ more) = before (ps.map (·.2)) (elemsLine x st more) := by
  intro ps
  induction ps with
  | nil => intro _ more; simp [before]
  | cons p ps ih =>
    intro h more
    obtain ⟨w, t⟩ := p
    obtain ⟨hs, hne, hh, ht, _⟩ := h (w, t) (by simp)
    simp only at hs hne hh ht
    have ih := ih (fun p hp => h p (by simp [hp])) more
    obtain ⟨c, r, rfl⟩ : ∃ c r, w = c :: r := by
      cases w with
      | nil => exact absurd rfl hne
      | cons c r => exact ⟨c, r, rfl⟩
    obtain ⟨h1, h2, h3, h4⟩ := hh c r rfl
    have h10 : c :: r ≠ [10] := by
      intro h
      have := solid_no_newline hs
      rw [h] at this
      simp at this
    rw [List.map_cons, List.cons_append, elemsLine, if_neg, if_neg, if_neg, ht, ih]
    · simp [before]
    · exact fun h => h4 (List.cons.inj h).1
    · simp only [Bool.or_eq_true, decide_eq_true_eq, not_or]
      exact ⟨fun h => h3 (List.cons.inj h).1, h10⟩
    · simp only [Bool.or_eq_true, decide_eq_true_eq, not_or]
      exact ⟨fun h => h1 (List.cons.inj h).1, by
        rw [show Str.hasPrefix (lit "],") (c :: r) = false from hasPrefix_cons_ne h1 _ _]; simp⟩

theorem item_words {x : Ext} {ps : List (Bytes × Token)} (h : ∀ p ∈ ps, Item x p.1 p.2) :
    ∀ w ∈ ps.map (·.1), Solid w ∧ w ≠ [] := by
  intro w hw
  obtain ⟨p, hp, rfl⟩ := List.mem_map.1 hw
  exact ⟨(h p hp).solid, (h p hp).ne⟩

/-- A line of items. -/
theorem run_items {x : Ext} {fr : List Frame} {ps : List (Bytes × Token)} (h : ∀ p ∈ ps, Item x p.1 p.2) (ls : List Bytes) :
    run x false (.elems :: fr) (row (ps.map (·.1)) :: ls) = ps.map (·.2) ++ run x false (.elems :: fr) ls := by
  cases ps with
  | nil => exact run_blank rfl (by intro c hc; simp [row] at hc) ls
  | cons p ps =>
    have hw := words_row _ (item_words h)
    obtain ⟨hs, hne, hh, ht, _⟩ := h p (by simp)
    have hpre : ∀ d : UInt8, Str.hasPrefix [47, d] p.1 = false := by
      intro d
      cases hp : p.1 with
      | nil => exact absurd hp hne
      | cons c r => exact hasPrefix_cons_ne (hh c r hp).2.1 _ _
    rw [run_step (first := p.1) (more := ps.map (·.1)) hw (hpre 47) (hpre 42)]
    have : step x (row ((p :: ps).map (·.1))) (.elems :: fr) = ((p :: ps).map (·.2), some (.elems :: fr)) := by
      rw [step, items, hw, elemsLine_items _ h]
      have h1 : elemsLine x fr [[10]] = ([], some (.elems :: fr)) := by
        rw [elemsLine, if_neg (by decide), if_pos (by decide), elemsLine]
      rw [h1]
      simp [before]
    rw [this]
    rfl

/-- The last line of a list. -/
theorem run_last {x : Ext} {fr : List Frame} {ps : List (Bytes × Token)} (h : ∀ p ∈ ps, Item x p.1 p.2) (ls : List Bytes) :
    run x false (.elems :: fr) (row (ps.map (·.1) ++ [lit "],"]) :: ls) =
      ps.map (·.2) ++ { kind := .listEnd } :: run x false fr ls := by
  have hw := words_row (ps.map (·.1) ++ [lit "],"]) (by
    intro w hw
    rcases List.mem_append.1 hw with hw | hw
    · exact item_words h w hw
    · rw [List.mem_singleton] at hw
      subst hw
      exact ⟨solid_graphic (by decide), by decide⟩)
  have hl : elemsLine x fr [lit "],", [10]] = ([{ kind := .listEnd }], some fr) := by
    rw [elemsLine, if_pos (by decide)]
  have hst : step x (row (ps.map (·.1) ++ [lit "],"])) (.elems :: fr) =
      (ps.map (·.2) ++ [{ kind := .listEnd }], some fr) := by
    rw [step, items, hw, List.append_assoc, elemsLine_items _ h]
    show before _ (elemsLine x fr [lit "],", [10]]) = _
    rw [hl]
    rfl
  have hfirst : ∃ first more, ps.map (·.1) ++ [lit "],"] = first :: more ∧ ∀ d : UInt8, Str.hasPrefix [47, d] first = false := by
    cases ps with
    | nil => exact ⟨_, _, rfl, fun d => rfl⟩
    | cons p ps =>
      obtain ⟨hs, hne, hh, ht, _⟩ := h p (by simp)
      refine ⟨_, _, rfl, fun d => ?_⟩
      show Str.hasPrefix [47, d] p.1 = false
      cases hp : p.1 with
      | nil => exact absurd hp hne
      | cons c r => exact hasPrefix_cons_ne (hh c r hp).2.1 _ _
  obtain ⟨first, more, he, hp⟩ := hfirst
  rw [run_step (hw.trans he) (hp 47) (hp 42), hst]
  simp [cont]

theorem run_rows {x : Ext} {fr : List Frame} : ∀ (rows : List (List (Bytes × Token))), (∀ r ∈ rows, ∀ p ∈ r, Item x p.1 p.2) →
    ∀ (last : List (Bytes × Token)), (∀ p ∈ last, Item x p.1 p.2) → ∀ T,
    run x false (.elems :: fr) (lines (rowsText (rows.map fun r => r.map (·.1)) ++ row (last.map (·.1)) ++ lit " ],\n" ++ T)) =
      (rows.flatten ++ last).map (·.2) ++ { kind := .listEnd } :: run x false fr (lines T) := by
  intro rows
  induction rows with
  | nil =>
    intro _ last hl T
    have h1 : rowsText (([] : List (List (Bytes × Token))).map fun r => r.map (·.1)) ++ row (last.map (·.1)) ++ lit " ],\n" ++ T =
        row (last.map (·.1) ++ [lit "],"]) ++ 10 :: T := by
      simp [rowsText, row_append, row, lit]
    rw [h1, lines_line, run_last hl]
    · simp
    · apply row_no_newline
      intro w hw
      rcases List.mem_append.1 hw with hw | hw
      · exact item_words hl w hw
      · rw [List.mem_singleton] at hw
        subst hw
        exact ⟨solid_graphic (by decide), by decide⟩
  | cons r rows ih =>
    intro h last hl T
    have h1 : rowsText ((r :: rows).map fun r => r.map (·.1)) ++ row (last.map (·.1)) ++ lit " ],\n" ++ T =
        row (r.map (·.1)) ++ 10 :: (rowsText (rows.map fun r => r.map (·.1)) ++ row (last.map (·.1)) ++ lit " ],\n" ++ T) := by
      simp [rowsText]
    rw [h1, lines_line (row_no_newline (item_words (h r (by simp)))), run_items (h r (by simp)),
      ih (fun r hr => h r (by simp [hr])) last hl]
    simp

/-- The tokens of a list. -/
theorem tokens_list {x : Ext} {rows : List (List (Bytes × Token))} (h : ∀ r ∈ rows, ∀ p ∈ r, Item x p.1 p.2)
    {last : List (Bytes × Token)} (hl : ∀ p ∈ last, Item x p.1 p.2) (T : Bytes) :
    tokens x (listText (rows.map fun r => r.map (·.1)) (last.map (·.1)) ++ T) =
      { kind := .structStart, name := lit "root" } :: { kind := .field, name := lit "x" } :: { kind := .listStart } ::
        ((rows.flatten ++ last).map (·.2) ++ { kind := .listEnd } :: run x false [.root] (lines T)) := by
  have hsol : Solid (lit "[") := solid_graphic (by decide)
  have hend : Solid (lit "],") := solid_graphic (by decide)
  have hid := ident_x
  unfold tokens
  congr 1
  have key : ∀ (ps : List (Bytes × Token)) (its : List Bytes) (rest : Bytes), (∀ p ∈ ps, Item x p.1 p.2) →
      (∀ w ∈ its, Solid w ∧ w ≠ []) →
      run x false [.root] (lines (lit "x: [" ++ row (ps.map (·.1) ++ its) ++ [10] ++ rest)) =
        { kind := .field, name := lit "x" } :: { kind := .listStart } ::
          (ps.map (·.2) ++ cont x (elemsLine x [.root] (its ++ [[10]])) (lines rest)) := by
    intro ps its rest hps hits
    have hws : ∀ w ∈ ps.map (·.1) ++ its, Solid w ∧ w ≠ [] := by
      intro w hw
      rcases List.mem_append.1 hw with hw | hw
      · exact item_words hps w hw
      · exact hits w hw
    have hv : 10 ∉ lit "[" ++ row (ps.map (·.1) ++ its) := by
      intro hc
      rcases List.mem_append.1 hc with hc | hc
      · exact absurd hc (by decide)
      · exact row_no_newline hws hc
    have h1 : lit "x: [" ++ row (ps.map (·.1) ++ its) ++ [10] ++ rest =
        fieldRaw [] (lit "x") (lit "[" ++ row (ps.map (·.1) ++ its)) ++ 10 :: rest := by
      simp [fieldRaw, show lit "x: [" = [120, 58, 32, 91] from rfl, show lit "x" = [120] from rfl, show lit "[" = [91] from rfl]
    rw [h1, lines_line (fieldRaw_no_newline (by intro c hc; simp at hc) hid hv),
      run_field rfl (by intro c hc; simp at hc) hid (words_after hsol (by decide) hws) (by decide)]
    have h2 : ∀ its', fieldValue x [.root] (lit "x") (fieldRaw [] (lit "x") (lit "[" ++ row (ps.map (·.1) ++ its))) (lit "[") its' =
        before [{ kind := .field, name := lit "x" }, { kind := .listStart }] (elemsLine x [.root] its') := by
      intro its'
      unfold fieldValue
      rw [if_neg (by decide), if_neg (by decide), if_neg (by decide), if_neg (by decide), if_pos (by decide)]
    rw [h2, List.append_assoc, elemsLine_items ps hps]
    generalize elemsLine x [.root] (its ++ [[10]]) = e
    obtain ⟨ts, o⟩ := e
    cases o <;> simp [before, cont]
  unfold listText
  cases rows with
  | nil =>
    have := key last [lit "],"] T hl (by
      intro w hw
      rw [List.mem_singleton] at hw
      subst hw
      exact ⟨hend, by decide⟩)
    rw [show lit "x: [" ++ rowsText (([] : List (List (Bytes × Token))).map fun r => r.map (·.1)) ++ row (last.map (·.1)) ++
      lit " ],\n" ++ T = lit "x: [" ++ row (last.map (·.1) ++ [lit "],"]) ++ [10] ++ T by
        simp [rowsText, row_append, row, show lit " ],\n" = [32, 93, 44, 10] from rfl, show lit "]," = [93, 44] from rfl], this]
    have hl : elemsLine x [.root] ([lit "],"] ++ [[10]]) = ([{ kind := .listEnd }], some [.root]) := by
      rw [List.singleton_append, elemsLine, if_pos (by decide)]
    rw [hl]
    simp [cont]
  | cons r rows =>
    have := key r [] (rowsText (rows.map fun r => r.map (·.1)) ++ row (last.map (·.1)) ++ lit " ],\n" ++ T) (h r (by simp))
      (by intro w hw; simp at hw)
    rw [show lit "x: [" ++ rowsText ((r :: rows).map fun r => r.map (·.1)) ++ row (last.map (·.1)) ++ lit " ],\n" ++ T =
      lit "x: [" ++ row (r.map (·.1) ++ []) ++ [10] ++
        (rowsText (rows.map fun r => r.map (·.1)) ++ row (last.map (·.1)) ++ lit " ],\n" ++ T) by simp [rowsText], this]
    have h1 : elemsLine x [.root] ([] ++ [[10]]) = ([], some [.elems, .root]) := by
      rw [List.nil_append, elemsLine, if_neg (by decide), if_pos (by decide), elemsLine]
    rw [h1]
    show _ :: _ :: (_ ++ ([] ++ run x false [.elems, .root] _)) = _
    rw [run_rows rows (fun r hr => h r (by simp [hr])) last hl]
    simp

/-! ### What an item is -/

theorem elemTok_comma {x : Ext} {w : Bytes} (h : endsWith 44 w = false) (c : Bool) :
    elemTok x (withComma w c) = elemTok x w := by
  unfold elemTok withComma
  cases c
  · rfl
  · simp only [if_true, trimLast_append, trimLast_other h]

theorem item_number (x : Ext) {n : Int} (hn : -2 ^ 63 ≤ n ∧ n < 2 ^ 63) (c : Bool) :
    Item x (withComma (numeral n) c) { kind := .field, data := (Int64.ofInt n).toUInt64 } := by
  have ht := numeral_numText n
  have hs := numText_solid ht
  have hno := numText_no_comma ht
  have hne : numeral n ≠ [] := by
    obtain ⟨_, c, r, h, _⟩ := ht
    rw [h]
    simp
  refine ⟨?_, ?_, ?_, ?_, rfl⟩
  · cases c
    · exact hs
    · exact solid_append hs (solid_graphic (by simp))
  · cases c <;> simp [withComma, hne]
  · intro d r h
    have hd : floatByte d ∧ d ≠ 44 := by
      obtain ⟨h1, e, r', h2, h3⟩ := ht
      have : d = e := by
        cases c <;> simp only [withComma, if_true, Bool.false_eq_true, if_false, h2] at h
        · exact (List.cons.inj h).1.symm
        · exact (List.cons.inj h).1.symm
      subst this
      have hf := h1 d (by rw [h2]; simp)
      refine ⟨hf, ?_⟩
      rintro rfl
      revert hf
      unfold floatByte
      decide
    refine ⟨?_, ?_, hd.2, ?_⟩ <;> (rintro rfl; have := hd.1; revert this; unfold floatByte; decide)
  · rw [elemTok_comma hno]
    have hb : ∀ d : UInt8, (numeral n).head? = some d → (48 ≤ d ∧ d ≤ 57) ∨ d = 45 := by
      intro d hd
      obtain ⟨_, e, r', h2, h3⟩ := ht
      rw [h2] at hd
      cases hd
      rcases h3 with h | h
      · exact .inl h
      · exact .inr h.1
    have hk : ∀ (d : UInt8) (r : Bytes), ¬ ((48 ≤ d ∧ d ≤ 57) ∨ d = 45) → numeral n ≠ d :: r := by
      intro d r hd h
      exact hd (hb d (by rw [h]; rfl))
    unfold elemTok
    simp only [trimLast_other hno]
    rw [if_neg (show numeral n ≠ lit "true" from hk 116 [114, 117, 101] (by decide)),
      if_neg (show numeral n ≠ lit "false" from hk 102 [97, 108, 115, 101] (by decide)), if_neg, if_pos, numberTok_numeral, if_pos hn]
    · unfold isNumber
      simp only [trimLast_other hno]
      obtain ⟨_, e, r', h2, h3⟩ := ht
      rw [h2]
      rcases h3 with ⟨h3, h4⟩ | ⟨rfl, c', r'', rfl, h3, h4⟩
      · simp only
        rw [if_neg]
        · simp [h3, h4]
        · simp only [Bool.or_eq_true, beq_iff_eq, not_or]
          constructor
          · rintro rfl; exact absurd h3 (by decide)
          · rintro rfl; exact absurd h3 (by decide)
      · simp [h3, h4]
    · cases h : numeral n with
      | nil => exact absurd h hne
      | cons d r =>
        have : d ≠ 0x22 := by rintro rfl; exact absurd (hb 0x22 (by rw [h]; rfl)) (by decide)
        rw [hasPrefix_cons_ne this]
        simp

theorem item_bool (x : Ext) (b c : Bool) :
    Item x (withComma (lit (if b then "true" else "false")) c) { kind := .field, type := .bool, data := if b then 1 else 0 } := by
  cases b <;> cases c <;>
    exact ⟨solid_graphic (by decide), by decide, (by rintro _ _ ⟨⟩; decide), by rfl, rfl⟩

theorem solid_quoted {s : Bytes} (hs : ∀ r ∈ runes s, wide r = false) : Solid (quoted s) := by
  rw [quoted_esc]
  exact solid_append (a := [0x22]) (solid_graphic (by simp))
    (solid_append (solid_esc fun r hr => ⟨Claw.Json.runes_scalar hr, hs r hr⟩) (solid_graphic (by simp)))

theorem quoted_no_comma (s : Bytes) : endsWith 44 (quoted s) = false := by
  rw [quoted_esc, ← List.cons_append, endsWith_append_ne (by decide)]

theorem item_string (x : Ext) {s : Bytes} (hs : ∀ r ∈ runes s, wide r = false) (c : Bool) :
    Item x (withComma (quoted s) c) { kind := .field, type := .string, bytes := repaired s } := by
  refine ⟨?_, ?_, ?_, ?_, rfl⟩
  · cases c
    · exact solid_quoted hs
    · exact solid_append (solid_quoted hs) (solid_graphic (by simp))
  · cases c <;> simp [withComma, quoted_esc]
  · intro d r h
    have : d = 0x22 := by
      cases c <;> simp only [withComma, if_true, Bool.false_eq_true, if_false, quoted_esc] at h <;>
        exact (List.cons.inj h).1.symm
    subst this
    decide
  · rw [elemTok_comma (quoted_no_comma s)]
    unfold elemTok
    simp only [trimLast_other (quoted_no_comma s)]
    rw [if_neg, if_neg, if_pos, unquote_quoted]
    · rfl
    · rw [quoted_esc]; rfl
    · rw [quoted_esc]; exact fun h => absurd (List.cons.inj h).1 (by decide)
    · rw [quoted_esc]; exact fun h => absurd (List.cons.inj h).1 (by decide)

end Claw.Text
