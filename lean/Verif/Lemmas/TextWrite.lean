import Verif.Lemmas.TextNum

/-!
# The text of a field, and how it is read
-/

namespace Claw.Text

open Claw.Idl (FT Out)
open Claw.Tok
open Claw.Json

set_option linter.unusedSimpArgs false

/-- The tokens of a text for the calls that wait. -/
def R (x : Ext) (fr : List Frame) (T : Bytes) : List Token := run x false fr (lines T)

/-- The stream does not start with the start of a struct, list or map. -/
def Head (l : List Token) : Prop := ∀ t r, l = t :: r → t.kind = .field ∨ t.kind = .structEnd

theorem head_nil : Head [] := by rintro t r ⟨⟩

theorem head_cons {t : Token} {r : List Token} (h : t.kind = .field ∨ t.kind = .structEnd) : Head (t :: r) := by
  rintro _ _ ⟨⟩
  exact h

/-- The parser goes on with fields. -/
def fieldsNext (fr : List Frame) : Bool := readsFields fr || inRaw fr

theorem numberTok_kind {x : Ext} {name : Str} {s : Bytes} {t : Token} (h : numberTok x name s = some t) : t.kind = .field := by
  unfold numberTok at h
  simp only at h
  split at h
  · simp only [Option.map_eq_some_iff] at h
    obtain ⟨_, _, rfl⟩ := h
    rfl
  · simp only [Option.map_eq_some_iff] at h
    obtain ⟨_, _, rfl⟩ := h
    rfl

/-- A step gives a token of a field or struct end first, or none and the parser goes on with fields. -/
def HeadStep (s : Step) : Prop :=
  (∃ t r, s.1 = t :: r ∧ (t.kind = .field ∨ t.kind = .structEnd)) ∨
    (s.1 = [] ∧ ∀ fr, s.2 = some fr → fieldsNext fr = true)

theorem headStep_one {t : Option Token} (h : ∀ t', t = some t' → t'.kind = .field) (st : List Frame) : HeadStep (one t st) := by
  cases t with
  | none => exact .inr ⟨rfl, by simp [one, stop]⟩
  | some t => exact .inl ⟨t, [], rfl, .inl (h t rfl)⟩

theorem headStep_stop : HeadStep stop := .inr ⟨rfl, by simp [stop]⟩

theorem headStep_map {α : Type} {a : Option α} {f : α → Token} (h : ∀ a, (f a).kind = .field) (st : List Frame) :
    HeadStep (one (a.map f) st) := by
  apply headStep_one
  intro t ht
  simp only [Option.map_eq_some_iff] at ht
  obtain ⟨_, _, rfl⟩ := ht
  exact h _

theorem headStep_some {t : Token} (h : t.kind = .field) (st : List Frame) : HeadStep (one (some t) st) :=
  headStep_one (by rintro _ ⟨⟩; exact h) st

theorem fieldValue_head {x : Ext} {st : List Frame} {name : Str} {raw v : Bytes} {its : List Bytes} :
    HeadStep (fieldValue x st name raw v its) := by
  unfold fieldValue
  split
  · exact headStep_some rfl _
  split
  · exact headStep_some rfl _
  split
  · exact headStep_some rfl _
  split
  · exact .inl ⟨_, _, rfl, .inl rfl⟩
  split
  · exact .inl ⟨_, _, rfl, .inl rfl⟩
  split
  · split
    · split
      · exact .inl ⟨_, _, rfl, .inl rfl⟩
      · exact headStep_stop
    · exact headStep_stop
  split
  · exact headStep_map (fun _ => rfl) _
  split
  · split
    · exact headStep_some rfl _
    · exact .inr ⟨rfl, by rintro fr ⟨⟩; rfl⟩
  split
  · exact headStep_map (fun _ => rfl) _
  split
  · exact headStep_one (fun t h => numberTok_kind h) _
  · exact headStep_some rfl _

theorem fieldLine_head {x : Ext} {st : List Frame} {raw : Bytes} : HeadStep (fieldLine x st raw) := by
  unfold fieldLine
  split
  · split
    · split
      · exact headStep_stop
      · exact fieldValue_head
    · split
      · split
        · split
          · exact headStep_stop
          · exact fieldValue_head
        · exact headStep_stop
      · exact headStep_stop
  · exact headStep_stop

theorem step_head {x : Ext} {fr : List Frame} (h : fieldsNext fr = true) (raw : Bytes) : HeadStep (step x raw fr) := by
  match fr, h with
  | .root :: st, _ =>
    rw [step]
    split
    · exact .inl ⟨_, _, rfl, .inr rfl⟩
    · exact fieldLine_head
  | .nested :: st, _ =>
    rw [step]
    split
    · exact .inl ⟨_, _, rfl, .inr rfl⟩
    · exact fieldLine_head
  | .raw n acc :: st, _ =>
    rw [step]
    split
    · exact headStep_some rfl _
    · exact .inr ⟨rfl, by rintro fr ⟨⟩; rfl⟩

theorem run_head {x : Ext} : ∀ (ls : List Bytes) (com : Bool) (fr : List Frame), fieldsNext fr = true → Head (run x com fr ls) := by
  intro ls
  induction ls with
  | nil =>
    intro com fr h
    match fr, h with
    | .root :: st, _ => exact head_cons (.inr rfl)
    | .nested :: st, _ => exact head_nil
    | .raw n acc :: st, _ => exact head_nil
  | cons l ls ih =>
    intro com fr h
    rw [run]
    split
    · exact ih _ _ h
    split
    · exact ih _ _ h
    split
    · exact ih _ _ h
    split
    · exact ih _ _ h
    have h1 := step_head (x := x) h l
    cases hs : step x l fr with
    | mk ts o =>
      rw [hs] at h1
      rcases h1 with ⟨t, r, h1, h2⟩ | ⟨h1, h2⟩
      · simp only at h1
        subst h1
        cases o with
        | none => exact head_cons h2
        | some st => exact head_cons h2
      · simp only at h1 h2
        subst h1
        cases o with
        | none => exact head_nil
        | some st => exact ih _ _ (h2 st rfl)

theorem R_head {x : Ext} {fr : List Frame} (h : readsFields fr = true) (T : Bytes) : Head (R x fr T) :=
  run_head _ _ _ (by unfold fieldsNext; rw [h]; rfl)

/-! ### Errors of Ingest -/

/-- The types of which a value has a start token. -/
def hasStart : Ty → Bool
  | .num _ _ | .str | .bytes | .any => false
  | _ => true

theorem readList_head {T : List Token} (h : Head T) : readList T = .err := by
  cases T with
  | nil => rfl
  | cons t r =>
    rw [readList, if_pos]
    rcases h t r rfl with h | h <;> rw [h] <;> decide

theorem ingest_head {env : Env} {ig : Bool} {ty : Ty} (hs : hasStart ty = true) {old : Val} {tok : Token} (hn : tok.isNil = false)
    {T : List Token} (h : Head T) : ∀ n, 2 ≤ n → ingestField env ig n ty old tok T = .err := by
  intro n hn'
  obtain ⟨n, rfl⟩ : ∃ m, n = m + 2 := ⟨n - 2, by omega⟩
  rw [ingestField.eq_def]
  cases ty <;> simp only [hasStart, Bool.false_eq_true] at hs <;>
    simp only [hn, Bool.false_eq_true, if_false, readList_head h]
  case struct s =>
    rw [ingestFrom.eq_def]
    cases T with
    | nil => rfl
    | cons t r =>
      simp only
      rw [if_pos]
      rcases h t r rfl with h | h <;> rw [h] <;> decide
  case listStruct s =>
    cases T with
    | nil => rfl
    | cons t r =>
      simp only
      rw [if_pos]
      rcases h t r rfl with h | h <;> rw [h] <;> decide
  case map k v =>
    cases T with
    | nil => rfl
    | cons t r =>
      simp only
      rw [if_pos]
      rcases h t r rfl with h | h <;> rw [h] <;> decide

/-! ### The writer -/

variable {x : Ext} {o : Opts}

/-- The writer is in a struct at this depth. -/
structure Ok (k : Nat) (st : WSt) : Prop where
  inArray : st.inArray = false
  top : st.top = false
  depth : st.depth = k

theorem ok_notFirst {k : Nat} {st : WSt} (h : Ok k st) : Ok k (notFirst st) := by
  obtain ⟨h1, h2, h3⟩ := h
  unfold notFirst
  split
  · exact ⟨h1, h2, h3⟩
  · exact ⟨h1, h2, h3⟩

theorem write_suffix : ∀ (a : List Token) (st : WSt) (b : List Token),
    ∃ p st', write x o st (a ++ b) = p ++ write x o st' b := by
  intro a
  induction a with
  | nil => intro st b; exact ⟨[], st, rfl⟩
  | cons t a ih =>
    intro st b
    rw [List.cons_append, write]
    split
    · split
      · exact ih _ b
      · obtain ⟨p, st', h⟩ := ih { st with depth := st.depth + 1, stack := true :: st.stack } b
        exact ⟨lit "{\n" ++ p, st', by rw [h]; simp⟩
    · split
      · obtain ⟨p, st', h⟩ := ih { st with depth := st.depth - 1, stack := st.stack.tail } b
        exact ⟨indentText o (st.depth - 1) ++ lit "},\n" ++ p, st', by rw [h]; simp⟩
      · exact ih _ b
    · obtain ⟨p, st', h⟩ := ih { st with stack := true :: st.stack, inArray := true } b
      exact ⟨lit "[" ++ p, st', by rw [h]; simp⟩
    · obtain ⟨p, st', h⟩ := ih { st with stack := st.stack.tail, inArray := false } b
      exact ⟨lit "],\n" ++ p, st', by rw [h]; simp⟩
    · obtain ⟨p, st', h⟩ := ih { st with depth := st.depth + 1, stack := true :: st.stack } b
      exact ⟨lit "@map {\n" ++ p, st', by rw [h]; simp⟩
    · obtain ⟨p, st', h⟩ := ih { st with depth := st.depth - 1, stack := st.stack.tail } b
      exact ⟨indentText o (st.depth - 1) ++ lit "},\n" ++ p, st', by rw [h]; simp⟩
    · obtain ⟨p, st', h⟩ := ih (notFirst st) b
      refine ⟨indentText o st.depth ++ quoted t.keyBytes ++ lit ": " ++ valueText x o { t with type := t.valueType } ++
        (if t.valueType = .listAny then [] else lit ",\n") ++ p, st', by rw [h]; simp⟩
    · obtain ⟨p, st', h⟩ := ih (notFirst st) b
      refine ⟨sepText st ++ (if t.name ≠ [] then indentText o st.depth ++ t.name ++ lit ": " else []) ++
        fieldText x o st t ++ p, st', by rw [h]; simp⟩

/-- A list end writes a newline. -/
theorem newline_list (a : List Token) (st : WSt) {t : Token} (ht : t.kind = .listEnd) (b : List Token) :
    10 ∈ write x o st (a ++ t :: b) := by
  obtain ⟨p, st', h⟩ := write_suffix (x := x) (o := o) a st (t :: b)
  rw [h, write]
  simp [ht, lit]

/-- A map end writes a newline. -/
theorem newline_map (a : List Token) (st : WSt) {t : Token} (ht : t.kind = .mapEnd) (b : List Token) :
    10 ∈ write x o st (a ++ t :: b) := by
  obtain ⟨p, st', h⟩ := write_suffix (x := x) (o := o) a st (t :: b)
  rw [h, write]
  simp [ht, lit]

/-- The text of a field. -/
theorem write_field {k : Nat} {st : WSt} (hs : Ok k st) {tok : Token} (hk : tok.kind = .field) (hn : tok.name ≠ [])
    (ts : List Token) : write x o st (tok :: ts) =
      fieldRaw (indentText o k) tok.name (fieldText x o st tok ++ write x o (notFirst st) ts) := by
  have h1 : sepText st = [] := by
    unfold sepText
    split
    · simp [hs.inArray]
    · rfl
  rw [write]
  simp only [hk, h1, if_pos hn, hs.depth, fieldRaw]
  simp [lit]

/-- The text of a value on one line. -/
theorem R_value {fr : List Frame} (hfr : readsFields fr = true) {ind : Bytes} (hi : BlankText ind) {name : Str}
    (hn : Ident name) {v w : Bytes} {ws : List Bytes} (hv : 10 ∉ v) (hw : words (v ++ [44]) = w :: ws) (hw10 : w ≠ [10])
    (T : Bytes) : R x fr (fieldRaw ind name ((v ++ lit ",\n") ++ T)) =
      cont x (fieldValue x fr name (fieldRaw ind name (v ++ [44])) w (ws ++ [[10]])) (lines T) := by
  have h1 : fieldRaw ind name ((v ++ lit ",\n") ++ T) = fieldRaw ind name (v ++ [44]) ++ 10 :: T := by
    simp [fieldRaw, lit]
  unfold R
  rw [h1, lines_line (fieldRaw_no_newline hi hn (by
    simp only [List.mem_append, List.mem_singleton, not_or]
    exact ⟨hv, by decide⟩)), run_field hfr hi hn hw hw10]

theorem R_solid {fr : List Frame} (hfr : readsFields fr = true) {ind : Bytes} (hi : BlankText ind) {name : Str}
    (hn : Ident name) {v : Bytes} (hv : Solid v) (T : Bytes) : R x fr (fieldRaw ind name ((v ++ lit ",\n") ++ T)) =
      cont x (fieldValue x fr name (fieldRaw ind name (v ++ [44])) (v ++ [44]) [[10]]) (lines T) := by
  have hs : Solid (v ++ [44]) := solid_append hv (solid_graphic (by simp))
  exact R_value hfr hi hn (solid_no_newline hv) (words_solid hs (by simp)) (by
    intro h
    have := congrArg List.getLast? h
    simp at this) T

/-- A text that starts with a character that is no white space, and has more than one line. -/
def Starts (T : Bytes) : Prop := ∃ r s, T = encodeRune r ++ s ∧ Scalar r ∧ isSpace r = false ∧ 10 ∈ s

theorem starts_cons {b : UInt8} (h1 : 0x21 ≤ b.toNat) (h2 : b.toNat ≤ 0x7E) {T : Bytes} (hT : 10 ∈ T) : Starts (b :: T) :=
  ⟨b.toNat, T, by rw [encodeRune_ascii (by omega)]; rfl, scalar_ascii h2, isSpace_graphic h1 h2, hT⟩

theorem starts_solid {v T : Bytes} (hv : Solid v) (hT : Starts T) : Starts (v ++ T) := by
  obtain ⟨rs, rfl, h⟩ := hv
  cases rs with
  | nil => exact hT
  | cons r rs =>
    refine ⟨r, enc rs ++ T, by rw [enc_cons]; simp, (h r (by simp)).1, (h r (by simp)).2, ?_⟩
    obtain ⟨q, s, rfl, _, _, h10⟩ := hT
    simp [h10]

theorem words_two {b : UInt8} (hb1 : 0x21 ≤ b.toNat) (hb2 : b.toNat ≤ 0x7E) {r : Nat} (hr : Scalar r)
    (hs : isSpace r = false) (t : Bytes) : ∃ w ws, words (b :: (encodeRune r ++ t)) = (b :: (encodeRune r ++ w)) :: ws := by
  have h1 : b :: (encodeRune r ++ t) = enc [b.toNat, r] ++ t := by
    rw [enc_cons, enc_cons, encodeRune_ascii (by omega)]
    simp [enc]
  unfold words
  rw [h1, chunks_enc _ (by
    intro q hq
    simp only [List.mem_cons, List.not_mem_nil, or_false] at hq
    rcases hq with rfl | rfl
    · exact scalar_ascii hb2
    · exact hr), wordsFrom_plain _ (by
    intro q hq
    simp only [List.mem_cons, List.not_mem_nil, or_false] at hq
    rcases hq with rfl | rfl
    · exact isSpace_graphic hb1 hb2
    · exact hs)]
  obtain ⟨w, ws, h2⟩ := wordsFrom_prefix (chunks t) ([] ++ enc [b.toNat, r]) (by simp [enc_eq_nil])
  refine ⟨w, ws, ?_⟩
  rw [h2, enc_cons, enc_cons, encodeRune_ascii (by omega)]
  simp [enc]

/-- A value that begins with a bracket or an at sign is taken for an enumerator, up to its first white space. -/
theorem R_opened {fr : List Frame} (hfr : readsFields fr = true) {ind : Bytes} (hi : BlankText ind) {name : Str}
    (hn : Ident name) {b : UInt8} (hb : b = 91 ∨ b = 64) {T : Bytes} (hT : Starts T) (hm : b = 64 → ∃ s, T = 97 :: s) :
    ∃ w rest, w ≠ [] ∧ R x fr (fieldRaw ind name (b :: T)) =
      { kind := .field, name := name, isEnum := true, enumName := w, bytes := w } :: R x fr rest := by
  obtain ⟨r, s, rfl, h1, h2, h3⟩ := hT
  obtain ⟨l, rest, rfl, h4⟩ := split_line s h3
  have hb' : 0x21 ≤ b.toNat ∧ b.toNat ≤ 0x7E ∧ nameByte b ∧ b ≠ 10 := by rcases hb with rfl | rfl <;> decide
  obtain ⟨w, ws, h5⟩ := words_two hb'.1 hb'.2.1 h1 h2 l
  have he : 10 ∉ encodeRune r := by
    have := solid_no_newline (v := encodeRune r) ⟨[r], by simp [enc], by simp [h1, h2]⟩
    exact this
  have hk : NotKeyword (b :: (encodeRune r ++ w)) := by
    have h6 : ∀ k : Bytes, k.head? ≠ some b → b :: (encodeRune r ++ w) ≠ k := by
      rintro k hk rfl
      simp at hk
    rcases hb with rfl | rfl
    · refine ⟨h6 _ (by decide), h6 _ (by decide), h6 _ (by decide), h6 _ (by decide), ?_, h6 _ (by decide)⟩
      intro h
      have h7 : encodeRune r = [] := by
        have := (List.cons.inj h).2
        simp at this
        exact this.1
      exact encodeRune_ne r h7
    · refine ⟨h6 _ (by decide), h6 _ (by decide), h6 _ (by decide), h6 _ (by decide), h6 _ (by decide), ?_⟩
      intro h
      obtain ⟨s', h7⟩ := hm rfl
      have h8 : encodeRune r ++ w = lit "map" := (List.cons.inj h).2
      cases hr : encodeRune r with
      | nil => exact encodeRune_ne r hr
      | cons c l' =>
        rw [hr] at h7 h8
        have h9 := (List.cons.inj h7).1
        have h10 := (List.cons.inj h8).1
        rw [h9] at h10
        exact absurd h10 (by decide)
  have hne : trimLast 44 (b :: (encodeRune r ++ w)) ≠ [] := by
    intro h
    unfold trimLast at h
    split at h
    · have h := congrArg List.length h
      have := encodeRune_pos r
      simp only [List.length_dropLast, List.length_cons, List.length_append, List.length_nil] at h
      omega
    · simp at h
  refine ⟨_, rest, hne, ?_⟩
  have h6 : fieldRaw ind name (b :: (encodeRune r ++ (l ++ 10 :: rest))) =
      fieldRaw ind name (b :: (encodeRune r ++ l)) ++ 10 :: rest := by simp [fieldRaw]
  unfold R
  rw [h6, lines_line (fieldRaw_no_newline hi hn (by
    simp only [List.mem_cons, List.mem_append, not_or]
    exact ⟨fun h => hb'.2.2.2 h.symm, he, h4⟩)), run_field hfr hi hn h5 (by
      intro h
      exact encodeRune_ne r (by have := (List.cons.inj h).2; simp at this; exact this.1)), fieldValue_enum hk hb'.2.2.1]
  rfl

end Claw.Text
