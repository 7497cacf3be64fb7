import Verif.Lemmas.TextForm

/-!
# Hand-written text: maps and strings over lines
-/

namespace Claw.Text

open Claw.Idl (FT Out numeral)
open Claw.Tok
open Claw.Json (Scalar encodeRune runes repaired Utf8)

set_option linter.unusedSimpArgs false

/-! ### Maps -/

theorem isNumber_numeral (n : Int) : isNumber (numeral n) = true := by
  have ht := numeral_numText n
  unfold isNumber
  simp only [trimLast_other (numText_no_comma ht)]
  obtain ⟨_, e, r', h2, h3⟩ := ht
  rw [h2]
  rcases h3 with ⟨h3, h4⟩ | ⟨rfl, c', r'', rfl, h3, h4⟩
  · simp only
    rw [if_neg]
    · simp [h3, h4]
    · simp only [Bool.or_eq_true, beq_iff_eq, not_or]
      constructor
      · rintro rfl; exact absurd h3 (by decide)
      · rintro rfl; exact absurd h3 (by decide)
  · simp [h3, h4]

theorem numeral_head (n : Int) : ∃ d r, numeral n = d :: r ∧ d ≠ 0x22 ∧ d ≠ 116 ∧ d ≠ 102 := by
  obtain ⟨h1, e, r', h2, h3⟩ := numeral_numText n
  refine ⟨e, r', h2, ?_⟩
  have := h1 e (by rw [h2]; simp)
  refine ⟨?_, ?_, ?_⟩ <;> (rintro rfl; revert this; unfold floatByte; decide)

/-- What a word gives as the value of the key `key`. -/
def entryTok (x : Ext) (key w : Bytes) (t : Token) : Prop :=
  ∀ (a : Bytes) (st : List Frame) (more : List Bytes), unquote a = some key → Str.hasPrefix [0x22] a = true →
    entryLine x st (a :: [58] :: (w ++ [44]) :: more) = ([t], some st)

theorem entry_number (x : Ext) (key : Bytes) {n : Int} (hn : -2 ^ 63 ≤ n ∧ n < 2 ^ 63) :
    entryTok x key (numeral n) { kind := .mapEntry, keyBytes := key, data := (Int64.ofInt n).toUInt64 } := by
  intro a st more hu hp
  have ht := numeral_numText n
  obtain ⟨d, r, hd, h1, h2, h3⟩ := numeral_head n
  have hat : Claw.Idl.atoi (numeral n) = some n := by rw [Claw.Idl.atoi_numeral, if_pos hn]
  unfold entryLine
  simp only [hp, Bool.not_true, Bool.false_eq_true, if_false, hu, ne_eq, not_true_eq_false, trimLast_append]
  rw [if_neg, if_neg, if_neg, if_pos (isNumber_numeral n), if_neg, hat]
  · rfl
  · rw [not_looksFloat (numeral_digits n)]; decide
  · rw [hd]; exact fun h => h3 (List.cons.inj h).1
  · rw [hd]; exact fun h => h2 (List.cons.inj h).1
  · rw [hd, hasPrefix_cons_ne h1]; decide

theorem entry_string (x : Ext) (key s : Bytes) :
    entryTok x key (quoted s) { kind := .mapEntry, keyBytes := key, type := .string, bytes := repaired s } := by
  intro a st more hu hp
  unfold entryLine
  simp only [hp, Bool.not_true, Bool.false_eq_true, if_false, hu, ne_eq, not_true_eq_false, trimLast_append]
  rw [if_pos (by rw [quoted_esc]; rfl), unquote_quoted]
  rfl

/-- One entry, on its line. -/
theorem run_entryLine {x : Ext} {fr : List Frame} {k w : Bytes} {t : Token} (hk : ∀ r ∈ runes k, wide r = false)
    (hw : Solid w) (ht : entryTok x (repaired k) w t) (T : Bytes) :
    run x false (.map :: fr) (lines (entryText k w ++ T)) = t :: run x false (.map :: fr) (lines T) := by
  have hs1 := solid_quoted hk
  have hs2 : Solid (w ++ [44]) := solid_append hw (solid_graphic (by simp))
  have hsc : Solid [58] := solid_graphic (by simp)
  have hws : ∀ v ∈ [[58], w ++ [44]], Solid v ∧ v ≠ [] := by
    intro v hv
    simp only [List.mem_cons, List.not_mem_nil, or_false] at hv
    rcases hv with rfl | rfl
    · exact ⟨hsc, by simp⟩
    · exact ⟨hs2, by simp⟩
  have h1 : entryText k w ++ T = (quoted k ++ row [[58], w ++ [44]]) ++ 10 :: T := by
    simp [entryText, row, show lit " : " = [32, 58, 32] from rfl, show lit ",\n" = [44, 10] from rfl]
  have hwd : words (quoted k ++ row [[58], w ++ [44]]) = [quoted k, [58], w ++ [44]] :=
    words_after hs1 (by rw [quoted_esc]; simp) hws
  have hno : 10 ∉ quoted k ++ row [[58], w ++ [44]] := by
    intro hc
    rcases List.mem_append.1 hc with hc | hc
    · exact quoted_no_newline k hc
    · exact row_no_newline hws hc
  have hq : ∀ p : Bytes, ∀ c : UInt8, c ≠ 0x22 → Str.hasPrefix (c :: p) (quoted k) = false := by
    intro p c hc
    rw [quoted_esc]
    exact hasPrefix_cons_ne hc.symm _ _
  rw [h1, lines_line hno, run_step hwd (hq _ _ (by decide)) (hq _ _ (by decide))]
  have hcl : closes (quoted k) = false := by
    unfold closes
    have : Str.hasPrefix (lit "},") (quoted k) = false := hq [44] 125 (by decide)
    rw [this, Bool.or_false, beq_eq_false_iff_ne]
    intro h
    rw [quoted_esc] at h
    exact absurd (List.cons.inj h).1 (by decide)
  have hst : step x (quoted k ++ row [[58], w ++ [44]]) (.map :: fr) = ([t], some (.map :: fr)) := by
    rw [step]
    simp only [items, hwd, List.cons_append, List.nil_append, List.headD_cons, hcl, Bool.false_eq_true, if_false]
    exact ht _ _ _ (unquote_quoted k) (by rw [quoted_esc]; rfl)
  rw [hst]
  rfl

/-- The end of a map. -/
theorem run_closeMap {x : Ext} {fr : List Frame} (T : Bytes) : run x false (.map :: fr) (lines (lit "},\n" ++ T)) =
    { kind := .mapEnd } :: run x false fr (lines T) := by
  rw [show lit "},\n" ++ T = lit "}," ++ 10 :: T from rfl, lines_line (by decide)]
  have hw : words (lit "},") = [lit "},"] := words_solid (solid_graphic (by decide)) (by decide)
  rw [run_step hw (by decide) (by decide)]
  have : step x (lit "},") (.map :: fr) = ([{ kind := .mapEnd }], some fr) := by
    rw [step]
    simp only [items, hw]
    rw [if_pos (by decide)]
  rw [this]
  rfl

theorem run_entries {x : Ext} {fr : List Frame} : ∀ (es : List (Bytes × Bytes × Token)),
    (∀ e ∈ es, (∀ r ∈ runes e.1, wide r = false) ∧ Solid e.2.1 ∧ entryTok x (repaired e.1) e.2.1 e.2.2) → ∀ T,
    run x false (.map :: fr) (lines ((es.flatMap fun e => entryText e.1 e.2.1) ++ lit "},\n" ++ T)) =
      es.map (·.2.2) ++ { kind := .mapEnd } :: run x false fr (lines T) := by
  intro es
  induction es with
  | nil => intro _ T; exact run_closeMap T
  | cons e es ih =>
    intro h T
    obtain ⟨h1, h2, h3⟩ := h e (by simp)
    rw [show ((e :: es).flatMap fun e => entryText e.1 e.2.1) ++ lit "},\n" ++ T = entryText e.1 e.2.1 ++
      ((es.flatMap fun e => entryText e.1 e.2.1) ++ lit "},\n" ++ T) by simp, run_entryLine h1 h2 h3,
      ih fun e he => h e (by simp [he])]
    simp

/-- The tokens of a map. -/
theorem tokens_map {x : Ext} {es : List (Bytes × Bytes × Token)}
    (h : ∀ e ∈ es, (∀ r ∈ runes e.1, wide r = false) ∧ Solid e.2.1 ∧ entryTok x (repaired e.1) e.2.1 e.2.2) (T : Bytes) :
    tokens x (mapText (es.map fun e => (e.1, e.2.1)) ++ T) = { kind := .structStart, name := lit "root" } ::
      { kind := .field, name := lit "x", type := .map } :: { kind := .mapStart } ::
      (es.map (·.2.2) ++ { kind := .mapEnd } :: run x false [.root] (lines T)) := by
  unfold tokens
  congr 1
  have h1 : mapText (es.map fun e => (e.1, e.2.1)) ++ T = fieldRaw [] (lit "x") (lit "@map {") ++
      10 :: ((es.flatMap fun e => entryText e.1 e.2.1) ++ lit "},\n" ++ T) := by
    simp [mapText, fieldRaw, List.flatMap_map, show lit "x: @map {\n" = [120, 58, 32, 64, 109, 97, 112, 32, 123, 10] from rfl,
      show lit "x" = [120] from rfl, show lit "@map {" = [64, 109, 97, 112, 32, 123] from rfl]
  have h2 : words (lit "@map {") = [lit "@map", lit "{"] := by decide +kernel
  rw [h1, lines_line (fieldRaw_no_newline (by intro c hc; simp at hc) ident_x (by decide)),
    run_field rfl (by intro c hc; simp at hc) ident_x h2 (by decide)]
  have h3 : ∀ raw, fieldValue x [.root] (lit "x") raw (lit "@map") ([lit "{"] ++ [[10]]) =
      ([{ kind := .field, name := lit "x", type := .map }, { kind := .mapStart }], some [.map, .root]) := by
    intro raw
    unfold fieldValue
    rw [if_neg (by decide), if_neg (by decide), if_neg (by decide), if_neg (by decide), if_neg (by decide), if_pos (by decide)]
    simp only [List.singleton_append]
    rw [if_pos (by decide)]
  rw [h3]
  show _ :: _ :: run x false [.map, .root] _ = _
  rw [run_entries es h]

/-! ### Strings over lines -/

theorem index_first {b : UInt8} : ∀ (a : Bytes), b ∉ a → ∀ r, Str.index [b] (a ++ b :: r) = some a.length := by
  intro a
  induction a with
  | nil => intro _ r; simp [Str.index, List.isPrefixOf]
  | cons c a ih =>
    intro h r
    simp only [List.mem_cons, not_or] at h
    rw [List.cons_append, Str.index, if_neg, ih h.2 r]
    · rfl
    · simp [List.isPrefixOf, h.1]

theorem index_none {b : UInt8} : ∀ (a : Bytes), b ∉ a → Str.index [b] a = none := by
  intro a
  induction a with
  | nil => intro _; rfl
  | cons c a ih =>
    intro h
    simp only [List.mem_cons, not_or] at h
    rw [Str.index, if_neg, ih h.2]
    · rfl
    · simp [List.isPrefixOf, h.1]

theorem not_blank {l : Bytes} (hl : words l ≠ []) : (items l == [[10]]) = false := by
  cases h : words l with
  | nil => exact absurd h hl
  | cons w ws => cases ws <;> simp [items, h]

theorem run_raw {x : Ext} {fr : List Frame} {name : Str} {rest : Bytes} (hr : 10 ∉ rest) (T : Bytes) (body : Bytes) :
    96 ∉ body → (∀ l ∈ lines (body ++ 96 :: rest ++ [10]), words l ≠ []) → ∀ acc, run x false (.raw name acc :: fr) (lines (body ++ 96 :: rest ++ 10 :: T)) =
      { kind := .field, name, type := .string, bytes := acc ++ [10] ++ body } :: run x false fr (lines T) := by
  intro hb hnb acc
  by_cases h10 : 10 ∈ body
  · obtain ⟨l, b, rfl, hl⟩ := split_line body h10
    have hterm : b.length < (l ++ 10 :: b).length := by simp; omega
    simp only [List.mem_append, List.mem_cons, not_or] at hb
    rw [show l ++ 10 :: b ++ 96 :: rest ++ 10 :: T = l ++ 10 :: (b ++ 96 :: rest ++ 10 :: T) by simp, lines_line hl, run]
    have hst : step x l (.raw name acc :: fr) = ([], some (.raw name (acc ++ [10] ++ l) :: fr)) := by
      rw [step, index_none l hb.1]
    rw [show l ++ 10 :: b ++ 96 :: rest ++ [10] = l ++ 10 :: (b ++ 96 :: rest ++ [10]) by simp, lines_line hl] at hnb
    have hi := not_blank (hnb l (by simp))
    simp only [inRaw, Bool.not_true, Bool.false_and, Bool.false_eq_true, if_false, hst, List.nil_append, hi]
    rw [run_raw hr T b hb.2.2 (fun l' hl' => hnb l' (List.mem_cons_of_mem _ hl'))]
    simp
  · have hno : 10 ∉ body ++ 96 :: rest := by
      simp only [List.mem_append, List.mem_cons, not_or]
      exact ⟨h10, by decide, hr⟩
    rw [lines_line hno, run]
    have hst : step x (body ++ 96 :: rest) (.raw name acc :: fr) =
        ([{ kind := .field, name, type := .string, bytes := acc ++ [10] ++ body }], some fr) := by
      rw [step, index_first body hb]
      simp [one]
    rw [show body ++ 96 :: rest ++ [10] = (body ++ 96 :: rest) ++ 10 :: [] by simp, lines_line hno] at hnb
    have hi := not_blank (hnb _ List.mem_cons_self)
    simp only [inRaw, Bool.not_true, Bool.false_and, Bool.false_eq_true, if_false, hst, List.singleton_append, hi]
termination_by body.length

end Claw.Text
