import Verif.Lemmas.TextWrite

/-!
# Reading the text of a struct
-/

namespace Claw.Text

open Claw.Idl (FT Out)
open Claw.Tok
open Claw.Json (Scalar encodeRune runes repaired special base64 hexOf norm_zero)

set_option linter.unusedSimpArgs false

/-! ### Lists -/

section
variable {x : Ext} {o : Opts}

/-- A list after its first item. -/
theorem starts_tail {st : WSt} {s : List Bool} (hst : st.stack = false :: s) (ha : st.inArray = true) {items : List Token}
    (hi : ∀ t ∈ items, t.kind = .field) {e : Token} (he : e.kind = .listEnd) (ts : List Token) :
    Starts (write x o st (items ++ e :: ts)) := by
  have h10 := newline_list (x := x) (o := o) items st he ts
  cases items with
  | nil =>
    rw [List.nil_append, write] at *
    simp only [he]
    rw [show lit "],\n" = [93, 44, 10] from rfl]
    exact starts_cons (b := 93) (by decide) (by decide) (by simp)
  | cons i is =>
    rw [List.cons_append, write] at *
    simp only [hi i (by simp), sepText, hst, ha, Bool.not_false, Bool.and_self, if_true, List.append_assoc] at *
    rw [show lit ", " = [44, 32] from rfl] at *
    refine starts_cons (b := 44) (by decide) (by decide) ?_
    simpa using h10

/-- A list with its first item. -/
theorem starts_list {st : WSt} {s : List Bool} (hst : st.stack = true :: s) (ha : st.inArray = true) {i : Token}
    {items : List Token} (hi : ∀ t ∈ i :: items, t.kind = .field) (hn : i.name = []) {e : Token} (he : e.kind = .listEnd)
    (ts : List Token) {v : Bytes} (hv : fieldText x o st i = v)
    (hg : Solid v ∨ ∃ b r, v = b :: r ∧ 0x21 ≤ b.toNat ∧ b.toNat ≤ 0x7E) :
    Starts (write x o st (i :: items ++ e :: ts)) := by
  have h1 : (notFirst st).stack = false :: s ∧ (notFirst st).inArray = true := by
    unfold notFirst
    rw [hst]
    exact ⟨rfl, ha⟩
  have h2 := starts_tail (x := x) (o := o) h1.1 h1.2 (items := items) (fun t h => hi t (by simp [h])) he ts
  rw [List.cons_append, write]
  simp only [hi i (by simp), sepText, hst, ha, Bool.not_true, Bool.and_false, Bool.false_eq_true, if_false, hn, ne_eq,
    not_true_eq_false, List.nil_append, hv]
  rcases hg with hg | ⟨b, r, rfl, hb1, hb2⟩
  · exact starts_solid hg h2
  · rw [List.cons_append]
    refine starts_cons hb1 hb2 ?_
    obtain ⟨q, s', h3, _, _, h4⟩ := h2
    rw [h3]
    simp [h4]

end

/-! ### Fields -/

/-- Ingest fails at this field. -/
def Refused (env : Env) (ig : Bool) (name : Str) (ty : Ty) (l : List Token) : Prop :=
  l = [] ∨ ∃ tok T, l = tok :: T ∧ tok.kind = .field ∧ tok.name = name ∧
    ∃ N, ∀ n, N ≤ n → ingestField env ig n ty ty.default tok T = .err

theorem refused_head {env : Env} {ig : Bool} {name : Str} {ty : Ty} (hs : hasStart ty = true) {tok : Token}
    (hk : tok.kind = .field) (hn : tok.name = name) (hnil : tok.isNil = false) {T : List Token} (h : Head T) :
    Refused env ig name ty (tok :: T) := .inr ⟨tok, T, rfl, hk, hn, 2, ingest_head hs hnil h⟩

section
variable {x : Ext} {o : Opts} {env : Env} {ig : Bool}

/-- A nil value, or an empty list or map. -/
theorem refused_null {fr : List Frame} (hfr : readsFields fr = true) {ind : Bytes} (hi : BlankText ind) {name : Str}
    (hn : Ident name) {ty : Ty} (ht : hasStart ty = true ∨ ty = .any) (T : Bytes) :
    Refused env ig name ty (R x fr (fieldRaw ind name ((lit "null" ++ lit ",\n") ++ T))) := by
  rw [R_solid hfr hi hn (solid_graphic (by decide)), fieldValue_word (by rintro c r ⟨⟩; decide)]
  rcases ht with ht | rfl
  · exact refused_head ht rfl rfl rfl (R_head hfr _)
  · refine .inr ⟨_, _, rfl, rfl, rfl, 1, fun n hn' => ?_⟩
    obtain ⟨n, rfl⟩ : ∃ m, n = m + 1 := ⟨n - 1, by omega⟩
    rfl

/-- A list that is not empty. -/
theorem refused_list {fr : List Frame} (hfr : readsFields fr = true) {ind : Bytes} (hi : BlankText ind) {name : Str}
    (hn : Ident name) {ty : Ty} (ht : hasStart ty = true) {T : Bytes} (hT : Starts T) :
    Refused env ig name ty (R x fr (fieldRaw ind name (91 :: T))) := by
  obtain ⟨w, rest, _, h⟩ := R_opened (x := x) hfr hi hn (.inl rfl) hT (fun h => absurd h (by decide))
  rw [h]
  exact refused_head ht rfl rfl rfl (R_head hfr _)

/-- An Any that is not nil. -/
theorem refused_any {fr : List Frame} (hfr : readsFields fr = true) {ind : Bytes} (hi : BlankText ind) {name : Str}
    (hn : Ident name) {T : Bytes} (hT : 10 ∈ T) :
    Refused env ig name .any (R x fr (fieldRaw ind name (64 :: 97 :: T))) := by
  obtain ⟨w, rest, hw, h⟩ := R_opened (x := x) hfr hi hn (b := 64) (.inr rfl) (T := 97 :: T)
    (starts_cons (by decide) (by decide) hT) (fun _ => ⟨_, rfl⟩)
  rw [h]
  refine .inr ⟨_, _, rfl, rfl, rfl, 1, fun n hn' => ?_⟩
  obtain ⟨n, rfl⟩ : ∃ m, n = m + 1 := ⟨n - 1, by omega⟩
  have h2 : Claw.Tok.setAnyRaw [] w = .err := by
    unfold Claw.Tok.setAnyRaw
    rw [if_neg hw]
    rfl
  rw [ingestField]
  simp only [Bool.false_eq_true, if_false, h2]

/-- A key without white space is one word with its colon. -/
theorem run_entry {fr : List Frame} {ind : Bytes} (hi : BlankText ind) {kb : Bytes} (hk : ∀ r ∈ runes kb, wide r = false)
    {T : Bytes} (hT : 10 ∈ T) : R x (.map :: fr) (ind ++ quoted kb ++ lit ": " ++ T) = [] := by
  obtain ⟨l, rest, rfl, h1⟩ := split_line T hT
  have hs : Solid (quoted kb ++ [58]) := by
    rw [quoted_esc]
    exact solid_append (solid_append (a := [0x22]) (solid_graphic (by simp))
      (solid_append (solid_esc fun r hr => ⟨Claw.Json.runes_scalar hr, hk r hr⟩) (solid_graphic (by simp))))
      (solid_graphic (by simp))
  have h2 : ind ++ quoted kb ++ lit ": " ++ (l ++ 10 :: rest) = (ind ++ ((quoted kb ++ [58]) ++ 32 :: l)) ++ 10 :: rest := by
    simp [lit]
  have h3 : 10 ∉ ind ++ ((quoted kb ++ [58]) ++ 32 :: l) := by
    simp only [List.mem_append, List.mem_cons, List.not_mem_nil, or_false, not_or]
    exact ⟨blank_no_newline hi, ⟨quoted_no_newline kb, by decide⟩, by decide, h1⟩
  have hw : words (ind ++ ((quoted kb ++ [58]) ++ 32 :: l)) = (quoted kb ++ [58]) :: words l := by
    rw [words_blank hi, words_split hs (by simp)]
  have hq : ∀ p : Bytes, ∀ c : UInt8, c ≠ 0x22 → Str.hasPrefix (c :: p) (quoted kb ++ [58]) = false := by
    intro p c hc
    rw [quoted_esc]
    exact hasPrefix_cons_ne hc.symm _ _
  unfold R
  rw [h2, lines_line h3, run_step hw (hq _ _ (by decide)) (hq _ _ (by decide))]
  have hcl : closes (quoted kb ++ [58]) = false := by
    unfold closes
    have : Str.hasPrefix (lit "},") (quoted kb ++ [58]) = false := hq [44] 125 (by decide)
    rw [this, Bool.or_false, beq_eq_false_iff_ne]
    intro h
    rw [quoted_esc] at h
    exact absurd (List.cons.inj h).1 (by decide)
  have hu : unquote (quoted kb ++ [58]) = none := by
    rw [quoted_esc, List.cons_append]
    simp only [unquote]
    rw [endsWith_append_ne (by decide)]
    rfl
  have hst : step x (ind ++ ((quoted kb ++ [58]) ++ 32 :: l)) (.map :: fr) = stop := by
    rw [step]
    simp only [items, hw, List.cons_append, List.headD_cons, hcl, Bool.false_eq_true, if_false]
    unfold entryLine
    split
    · rename_i a b v r he
      have : a = quoted kb ++ [58] := (List.cons.inj he).1.symm
      subst this
      rw [hu]
      split <;> rfl
    · rfl
  rw [hst]
  rfl

/-- A map that is not empty. -/
theorem refused_map {fr : List Frame} (hfr : readsFields fr = true) {ind ind' : Bytes} (hi : BlankText ind)
    (hi' : BlankText ind') {name : Str} (hn : Ident name) {k : FT} {v : MTy} {kb : Bytes}
    (hk : ∀ r ∈ runes kb, wide r = false) {T : Bytes} (hT : 10 ∈ T) :
    Refused env ig name (.map k v) (R x fr (fieldRaw ind name (lit "@map {\n" ++ (ind' ++ quoted kb ++ lit ": " ++ T)))) := by
  have h1 : ∀ T, fieldRaw ind name (lit "@map {\n" ++ T) = fieldRaw ind name (lit "@map {") ++ 10 :: T := by
    intro T
    simp [fieldRaw, lit]
  have h2 : words (lit "@map {") = [lit "@map", lit "{"] := by decide +kernel
  have h3 : R x fr (fieldRaw ind name (lit "@map {\n" ++ (ind' ++ quoted kb ++ lit ": " ++ T))) =
      [{ kind := .field, name, type := .map }, { kind := .mapStart }] ++
        R x (.map :: fr) (ind' ++ quoted kb ++ lit ": " ++ T) := by
    unfold R
    rw [h1, lines_line (fieldRaw_no_newline hi hn (by decide)), run_field hfr hi hn h2 (by decide)]
    rfl
  rw [h3, run_entry hi' hk hT]
  refine .inr ⟨_, _, rfl, rfl, rfl, 2, fun n hn' => ?_⟩
  obtain ⟨n, rfl⟩ : ∃ m, n = m + 2 := ⟨n - 2, by omega⟩
  rfl

/-- The first token of a map entry. -/
theorem walkEntry_head (env : Env) (name : Str) (k : FT) (v : MTy) (key : Key) (val : Val) :
    ∃ t r, walkEntry env name k v key val = t :: r ∧ t.kind = .mapEntry ∧
      t.keyBytes = (match key with | .str b => b | .num _ => []) := by
  have h : ∀ ft, (entryTok name k ft key).kind = .mapEntry ∧
      (entryTok name k ft key).keyBytes = (match key with | .str b => b | .num _ => []) := by
    intro ft; cases key <;> exact ⟨rfl, rfl⟩
  cases val <;> simp only [walkEntry] <;> first
    | exact ⟨_, _, rfl, (h _).1, (h _).2⟩
    | (split <;> exact ⟨_, _, rfl, (h _).1, (h _).2⟩)

/-- The end of a nested struct. -/
theorem R_close {fr : List Frame} (hfr : readsFields fr = true) {ind : Bytes} (hi : BlankText ind) (T : Bytes) :
    R x (.nested :: fr) (ind ++ lit "},\n" ++ T) = { kind := .structEnd } :: R x fr T := by
  have h1 : ind ++ lit "},\n" ++ T = (ind ++ lit "},") ++ 10 :: T := by simp [lit]
  have h2 : words (ind ++ lit "},") = [lit "},"] := by rw [words_blank hi]; decide +kernel
  unfold R
  rw [h1, lines_line (by
    simp only [List.mem_append, not_or]
    exact ⟨blank_no_newline hi, by decide⟩), run_step h2 (by decide) (by decide)]
  have h3 : step x (ind ++ lit "},") (.nested :: fr) = ([{ kind := .structEnd }], some fr) := by
    rw [step]
    simp only [items, h2, List.cons_append, List.headD_cons]
    rw [if_pos (by decide)]
    match fr, hfr with
    | .root :: st, _ => rfl
    | .nested :: st, _ => rfl
  rw [h3]
  rfl

/-- The start of a nested struct. -/
theorem R_openStruct {fr : List Frame} (hfr : readsFields fr = true) {ind : Bytes} (hi : BlankText ind) {name : Str}
    (hn : Ident name) (T : Bytes) : R x fr (fieldRaw ind name (lit "{\n" ++ T)) =
      { kind := .field, name, type := .struct } :: { kind := .structStart, name } :: R x (.nested :: fr) T := by
  have h1 : fieldRaw ind name (lit "{\n" ++ T) = fieldRaw ind name (lit "{") ++ 10 :: T := by
    simp [fieldRaw, lit]
  have h2 : words (lit "{") = [lit "{"] := by decide +kernel
  unfold R
  rw [h1, lines_line (fieldRaw_no_newline hi hn (by decide)), run_field hfr hi hn h2 (by decide)]
  rfl

theorem ident_ne {n : Str} (h : Ident n) : n ≠ [] := by
  obtain ⟨c, r, rfl, _⟩ := ident_head h
  simp

theorem numTok_field (x : Ext) (o : Opts) {st : WSt} {nm : Str} {t : FT} {e : Option EnumT} {d : UInt64} (h : Holds t d) :
    (numTok nm t e d).kind = .field ∧ (numTok nm t e d).name = nm ∧ fieldText x o st (numTok nm t e d) =
      valueText x o (numTok nm t e d) ++ (if st.inArray then [] else lit ",\n") := by
  have ht : (numTok nm t e d).type = t ∧ (numTok nm t e d).kind = .field ∧ (numTok nm t e d).name = nm := by
    cases e <;> exact ⟨rfl, rfl, rfl⟩
  refine ⟨ht.2.1, ht.2.2, ?_⟩
  unfold fieldText
  rw [ht.1]
  cases t <;> simp only [Holds] at h <;> rfl

/-- What is written for a nil value. -/
theorem fieldText_nil {st : WSt} (ha : st.inArray = false) {tok : Token} (h : tok.isNil = true) :
    fieldText x o st tok = lit "null" ++ lit ",\n" := by
  have hv : valueText x o tok = lit "null" := by
    unfold valueText
    rw [if_pos h]
  unfold fieldText
  split
  all_goals first
    | (rw [if_pos h]; rfl)
    | rw [hv, ha, if_neg (by decide)]

/-- What is written for a list. -/
theorem write_list {k : Nat} {st : WSt} (hs : Ok k st) {name : Str} (hn : name ≠ []) {t : FT}
    (ht : ∀ tok : Token, tok.type = t → tok.isNil = false → fieldText x o st tok = []) (e : Bool) (items ts : List Token) :
    write x o st (({ kind := .field, name, type := t, isEnum := e } : Token) :: { kind := .listStart, name, type := t } ::
      (items ++ [{ kind := .listEnd, name }]) ++ ts) =
      fieldRaw (indentText o k) name (91 :: write x o { notFirst st with stack := true :: (notFirst st).stack, inArray := true }
        (items ++ { kind := .listEnd, name } :: ts)) := by
  rw [List.cons_append, write_field hs rfl hn, ht _ rfl rfl, List.nil_append, List.cons_append, write]
  simp [lit]

/-- A list field. -/
theorem refused_listToks {fr : List Frame} (hfr : readsFields fr = true) (hb : Blank o) {name : Str} (hn : Ident name)
    {k : Nat} {st : WSt} (hs : Ok k st) {t : FT}
    {e : Bool} {ty : Ty} (hty : hasStart ty = true) {n : Nat} {items : List Token} (ts : List Token)
    (ht : n ≠ 0 → ∀ st tok, tok.type = t → tok.isNil = false → fieldText x o st tok = [])
    (hi : n ≠ 0 → ∀ st s, st.stack = true :: s → st.inArray = true → st.top = false →
      Starts (write x o st (items ++ ({ kind := .listEnd, name } : Token) :: ts))) :
    Refused env ig name ty (R x fr (write x o st (listToks name t e n items ++ ts))) := by
  unfold listToks
  by_cases h0 : n = 0
  · rw [if_pos h0, List.singleton_append, write_field hs rfl (ident_ne hn), fieldText_nil hs.inArray rfl]
    exact refused_null hfr (blank_indent hb _) hn (.inl hty) _
  · rw [if_neg h0, write_list hs (ident_ne hn) (fun tok h1 h2 => ht h0 _ _ h1 h2)]
    exact refused_list hfr (blank_indent hb _) hn hty (hi h0 _ _ rfl rfl (ok_notFirst hs).top)

mutual

theorem tfield (hb : Blank o) (hx : FloatsOk x) (hna : NamedAll env) (hd : Distinct env)
    {name : Str} (hn : Ident name) {ty : Ty} (hen : ∀ t e, (ty = .num t (some e) ∨ ty = .listNum t (some e)) → NamedEnum e)
    (v : Val) (hf : Fits env ty v) (hp : plainKeys v = true) {fr : List Frame} (hfr : readsFields fr = true) {k : Nat} {st : WSt}
    (hs : Ok k st) (ts : List Token) :
    ∃ st', Ok k st' ∧
      (readable env ty v = true → ∃ tok T, R x fr (write x o st (walkField env name ty v ++ ts)) = tok :: T ∧
        tok.kind = .field ∧ tok.name = name ∧ ∃ N, ∀ n, N ≤ n →
          ingestField env ig n ty ty.default tok T = .ok (back x o env ty v, R x fr (write x o st' ts))) ∧
      (readable env ty v = false → Refused env ig name ty (R x fr (write x o st (walkField env name ty v ++ ts)))) := by
  have hi := blank_indent hb k
  cases v with
  | num d =>
    cases hf with
    | @num t e _ h =>
      refine ⟨notFirst st, ok_notFirst hs, fun hr => ?_, fun hr => ?_⟩
      · obtain ⟨h1, h2, h3⟩ := numTok_field x o (st := st) (nm := name) (e := e) h
        obtain ⟨hsol, hread⟩ := scalar_reads hx (o := o) (name := name) h (fun e' he => hen t e' (by rw [he]; exact .inl rfl))
          hr name
        rw [hs.inArray] at h3
        simp only [Bool.false_eq_true, if_false] at h3
        simp only [walkField, List.singleton_append, back]
        rw [write_field hs h1 (by rw [h2]; exact ident_ne hn), h2, h3, R_solid hfr hi hn hsol]
        obtain ⟨tok, h4, h5, h6, h7⟩ := hread fr (fieldRaw (indentText o k) name (valueText x o (numTok name t e d) ++ [44])) [[10]]
        rw [h4]
        refine ⟨tok, _, rfl, h5, h6, 1, fun n hn' => ?_⟩
        obtain ⟨n, rfl⟩ : ∃ m, n = m + 1 := ⟨n - 1, by omega⟩
        rw [ingestField, h7]
        rfl
      · obtain ⟨h1, h2, h3⟩ := numTok_field x o (st := st) (nm := name) (e := e) h
        obtain ⟨hsol, hne, hstop⟩ := large_refused (x := x) (o := o) (name := name) (nm := name) hr
        rw [hs.inArray] at h3
        simp only [Bool.false_eq_true, if_false] at h3
        simp only [walkField, List.singleton_append]
        rw [write_field hs h1 (by rw [h2]; exact ident_ne hn), h2, h3, R_solid hfr hi hn hsol, hstop]
        exact .inl rfl
  | bin b =>
    cases hf with
    | str =>
      refine ⟨notFirst st, ok_notFirst hs, fun _ => ?_, by simp [readable]⟩
      simp only [walkField, List.singleton_append, back]
      rw [write_field hs rfl (ident_ne hn)]
      have ht : fieldText x o st { kind := .field, name, type := .string, bytes := b } = quoted b ++ lit ",\n" := by
        simp [fieldText, valueText, hs.inArray]
      obtain ⟨r, ws, h1, h2⟩ := string_words hi hn b
      rw [ht, R_value hfr hi hn (quoted_no_newline b) h1 (by rintro ⟨⟩), fieldValue_quoted (quote_notKeyword _), h2]
      refine ⟨_, _, rfl, rfl, rfl, 1, fun n hn' => ?_⟩
      obtain ⟨n, rfl⟩ : ∃ m, n = m + 1 := ⟨n - 1, by omega⟩
      rfl
    | bytes =>
      refine ⟨notFirst st, ok_notFirst hs, fun _ => ?_, by simp [readable]⟩
      simp only [walkField, List.singleton_append, back]
      rw [write_field hs rfl (ident_ne hn)]
      cases hh : o.hexBytes with
      | true =>
        have ht : fieldText x o st { kind := .field, name, type := .bytes, bytes := b } =
            (lit "0x" ++ hexOf b) ++ lit ",\n" := by
          simp [fieldText, valueText, hs.inArray, hh]
        have hsol : Solid (lit "0x" ++ hexOf b) := solid_append (solid_graphic (by decide)) (solid_graphic fun c hc => by
          have := hexOf_bytes c hc
          omega)
        rw [ht, R_solid hfr hi hn hsol, fieldValue_hex]
        refine ⟨_, _, rfl, rfl, rfl, 1, fun n hn' => ?_⟩
        obtain ⟨n, rfl⟩ : ∃ m, n = m + 1 := ⟨n - 1, by omega⟩
        rfl
      | false =>
        have ht : fieldText x o st { kind := .field, name, type := .bytes, bytes := b } =
            (0x22 :: base64 b ++ [0x22]) ++ lit ",\n" := by
          simp [fieldText, valueText, hs.inArray, hh]
        have hsol : Solid (0x22 :: base64 b ++ [0x22]) := solid_append (solid_append (a := [0x22]) (solid_graphic (by decide))
          (solid_graphic fun c hc => by
            have := base64_bytes b c hc
            omega)) (solid_graphic (by decide))
        rw [ht, R_solid hfr hi hn hsol, fieldValue_base64]
        refine ⟨_, _, rfl, rfl, rfl, 1, fun n hn' => ?_⟩
        obtain ⟨n, rfl⟩ : ∃ m, n = m + 1 := ⟨n - 1, by omega⟩
        rfl
  | null =>
    refine ⟨st, hs, by simp [readable], fun _ => ?_⟩
    cases hf with
    | nil =>
      simp only [walkField, List.singleton_append]
      rw [write_field hs rfl (ident_ne hn)]
      exact refused_null hfr hi hn (.inl rfl) _
    | noAny =>
      simp only [walkField, List.singleton_append]
      rw [write_field hs rfl (ident_ne hn), show fieldText x o st { kind := .field, name, type := .any, isNil := true } =
        lit "null" ++ lit ",\n" by simp [fieldText, valueText, hs.inArray]]
      exact refused_null hfr hi hn (.inr rfl) _
  | obj fs =>
    cases hf with
    | @obj s _ hfs =>
      have hs1 : Ok (k + 1) { notFirst st with depth := (notFirst st).depth + 1, stack := true :: (notFirst st).stack } :=
        ⟨(ok_notFirst hs).inArray, (ok_notFirst hs).top, by simp [(ok_notFirst hs).depth]⟩
      have hclose : ∀ st', Ok (k + 1) st' → R x (.nested :: fr) (write x o st' (({ kind := .structEnd } : Token) :: ts)) =
          { kind := .structEnd } :: R x fr (write x o { st' with depth := st'.depth - 1, stack := st'.stack.tail } ts) := by
        intro st' h
        rw [write]
        simp only [h.depth, Nat.zero_lt_succ, if_true, Nat.add_sub_cancel]
        rw [R_close hfr (blank_indent hb k)]
      obtain ⟨st', hs', N, hN⟩ := tfields hb hx hna hd (s := s) (pds := []) (ds := env s) rfl fs hfs (by simpa [plainKeys] using hp)
        (fr := .nested :: fr) rfl hs1 (({ kind := .structEnd } : Token) :: ts)
        (fun st' h => ⟨_, _, hclose st' h, rfl⟩) [] rfl
      have hw : R x fr (write x o st (walkField env name (.struct s) (.obj fs) ++ ts)) =
          { kind := .field, name, type := .struct } :: { kind := .structStart, name } ::
            R x (.nested :: fr) (write x o { notFirst st with depth := (notFirst st).depth + 1, stack := true :: (notFirst st).stack }
              (walkFields env (env s) fs ++ ({ kind := .structEnd } : Token) :: ts)) := by
        simp only [walkField, List.cons_append, List.append_assoc, List.nil_append]
        rw [write_field hs rfl (ident_ne hn), show fieldText x o st { kind := .field, name, type := .struct } = [] from rfl,
          List.nil_append, write]
        simp only [(ok_notFirst hs).top, Bool.false_eq_true, if_false]
        rw [R_openStruct hfr hi hn]
      refine ⟨_, (⟨hs'.inArray, hs'.top, by simp [hs'.depth]⟩ :
        Ok k { st' with depth := st'.depth - 1, stack := st'.stack.tail }), fun hr => ?_, fun hr => ?_⟩
      · rw [hw]
        refine ⟨_, _, rfl, rfl, rfl, N + 2, fun n hn' => ?_⟩
        obtain ⟨n, rfl⟩ : ∃ m, n = m + 2 := ⟨n - 2, by omega⟩
        have h1 := (hN n (by omega)).1 (by simpa [readable] using hr)
        rw [ingestField]
        simp only [Bool.false_eq_true, if_false]
        rw [ingestFrom]
        simp only [ne_eq, not_true_eq_false, if_false]
        simp only [List.nil_append] at h1
        rw [show fresh env s = (env s).map (fun d => d.ty.default) from rfl, h1, hclose st' hs']
        simp [back]
      · rw [hw]
        refine .inr ⟨_, _, rfl, rfl, rfl, N + 2, fun n hn' => ?_⟩
        obtain ⟨n, rfl⟩ : ∃ m, n = m + 2 := ⟨n - 2, by omega⟩
        have h1 := (hN n (by omega)).2 (by simpa [readable] using hr)
        rw [ingestField]
        simp only [Bool.false_eq_true, if_false]
        rw [ingestFrom]
        simp only [ne_eq, not_true_eq_false, if_false]
        simp only [List.nil_append] at h1
        rw [show fresh env s = (env s).map (fun d => d.ty.default) from rfl, h1]
  | nums ds =>
    refine ⟨st, hs, by simp [readable], fun _ => ?_⟩
    cases hf with
    | @nums t e _ h =>
      simp only [walkField]
      refine refused_listToks hfr hb hn hs rfl ts (fun h0 st tok h1 h2 => ?_) fun h0 st s h1 h2 _ => ?_
      · cases ds with
        | nil => simp at h0
        | cons d ds =>
          have := h d (by simp)
          unfold fieldText
          rw [h1, h2]
          cases t <;> simp only [Holds] at this <;> rfl
      · cases ds with
        | nil => simp at h0
        | cons d ds =>
          have hd0 := h d (by simp)
          obtain ⟨h3, h4, h5⟩ := numTok_field x o (st := st) (nm := []) (e := e) hd0
          rw [h2, if_pos rfl, List.append_nil] at h5
          refine starts_list h1 h2 (by
            intro q hq
            obtain ⟨d', hd', rfl⟩ := List.mem_map.1 (show q ∈ (d :: ds).map (numTok [] t e) from hq)
            exact (numTok_field x o (st := st) (nm := []) (e := e) (h d' hd')).1) h4 rfl ts h5 (.inl ?_)
          by_cases hr : numReadable t e d = true
          · exact (scalar_reads hx (o := o) (name := []) hd0 (fun e' he => hen t e' (by rw [he]; exact .inr rfl)) hr []).1
          · exact (large_refused (x := x) (o := o) (name := []) (nm := []) (by simpa using hr)).1
  | bins bs =>
    refine ⟨st, hs, by cases ty <;> simp [readable], fun _ => ?_⟩
    cases hf with
    | strs =>
      simp only [walkField]
      refine refused_listToks hfr hb hn hs rfl ts (fun h0 st tok h1 h2 => ?_) fun h0 st s h1 h2 _ => ?_
      · unfold fieldText
        rw [h1, h2]
        rfl
      · cases bs with
        | nil => simp at h0
        | cons b bs =>
          refine starts_list h1 h2 (by simp) rfl rfl ts rfl (.inr ⟨0x22, esc (runes b) ++ [0x22], ?_, by decide, by decide⟩)
          simp [fieldText, valueText, h2, quoted_esc]
    | binaries =>
      simp only [walkField]
      refine refused_listToks hfr hb hn hs rfl ts (fun h0 st tok h1 h2 => ?_) fun h0 st s h1 h2 _ => ?_
      · unfold fieldText
        rw [h1, h2]
        rfl
      · cases bs with
        | nil => simp at h0
        | cons b bs =>
          cases hh : o.hexBytes with
          | true =>
            refine starts_list h1 h2 (by simp) rfl rfl ts rfl (.inr ⟨48, 120 :: hexOf b, ?_, by decide, by decide⟩)
            simp only [fieldText, valueText, h2, hh, Bool.false_eq_true, if_false, if_true, List.append_nil]
            rfl
          | false =>
            refine starts_list h1 h2 (by simp) rfl rfl ts rfl (.inr ⟨0x22, base64 b ++ [0x22], ?_, by decide, by decide⟩)
            simp [fieldText, valueText, h2, hh]
  | list l =>
    refine ⟨st, hs, by simp [readable], fun _ => ?_⟩
    cases hf with
    | @list s _ hl =>
      simp only [walkField]
      refine refused_listToks hfr hb hn hs rfl ts (fun h0 st tok h1 h2 => ?_) fun h0 st s' h1 h2 h3 => ?_
      · unfold fieldText
        rw [h1, h2]
        rfl
      · cases l with
        | nil => simp at h0
        | cons v l =>
          cases v <;> cases hl
          simp only [walkItems, walk, List.cons_append]
          rw [write]
          simp only [h3, Bool.false_eq_true, if_false]
          rw [show lit "{\n" = [123, 10] from rfl]
          exact starts_cons (b := 123) (by decide) (by decide) (by simp)
  | map ks vs =>
    refine ⟨st, hs, by simp [readable], fun _ => ?_⟩
    cases hf with
    | @map kt vt _ _ hk hri hvs =>
      simp only [walkField]
      cases hvs with
      | nil =>
        rw [if_pos rfl, List.singleton_append, write_field hs rfl (ident_ne hn), fieldText_nil hs.inArray rfl]
        exact refused_null hfr hi hn (.inl rfl) _
      | @cons _ key ks v vs hv hvs =>
        rw [if_neg (by simp)]
        obtain ⟨t, r, h1, h2, h3⟩ := walkEntry_head env name kt vt key v
        simp only [walkEntries, h1, List.cons_append, List.append_assoc, List.nil_append]
        rw [write_field hs rfl (ident_ne hn),
          show fieldText x o st { kind := .field, name, type := .map, keyType := kt, valueType := vt.ft } = [] from rfl,
          List.nil_append, write]
        simp only
        rw [write]
        simp only [h2]
        rw [List.append_assoc, List.append_assoc]
        refine refused_map hfr hi (blank_indent hb _) hn ?_ ?_
        · rw [h3]
          simp only [plainKeys] at hp
          cases key with
          | num d => intro r hr; simp [runes, Claw.Json.runesN] at hr
          | str b =>
            simp only [plainKey, List.all_eq_true] at hp
            intro r hr
            simpa using hp r hr
        · have := newline_map (x := x) (o := o) (r ++ walkEntries env name kt vt ks vs)
            (notFirst { notFirst st with depth := (notFirst st).depth + 1, stack := true :: (notFirst st).stack })
            (t := { kind := .mapEnd, name }) rfl ts
          rw [List.append_assoc] at this
          simp only [List.mem_append]
          exact .inr (.inr this)
  | any h d =>
    refine ⟨st, hs, by simp [readable], fun _ => ?_⟩
    cases hf
    simp only [walkField, List.singleton_append]
    rw [write_field hs rfl (ident_ne hn), show fieldText x o st { kind := .field, name, type := .any, typeHash := h, bytes := d } =
      64 :: 97 :: (lit "ny(" ++ x.anyText h d ++ lit ",\n") by simp [fieldText, valueText, hs.inArray]; rfl]
    exact refused_any hfr hi hn (by simp [lit])
  | anys l =>
    refine ⟨st, hs, by simp [readable], fun _ => ?_⟩
    cases hf
    simp only [walkField]
    refine refused_listToks hfr hb hn hs rfl ts (fun h0 st tok h1 h2 => ?_) fun h0 st s' h1 h2 h3 => ?_
    · unfold fieldText
      rw [h1, h2]
      rfl
    · cases l with
      | nil => simp at h0
      | cons p l =>
        refine starts_list h1 h2 (by
          intro q hq
          rcases List.mem_cons.1 hq with rfl | hq
          · rfl
          · obtain ⟨_, _, rfl⟩ := List.mem_map.1 hq
            rfl) rfl rfl ts rfl (.inr ⟨64, lit "any(" ++ x.anyText p.1 p.2, ?_, by decide, by decide⟩)
        simp [fieldText, valueText, h2]
        rfl
termination_by sizeOf v

theorem tfields (hb : Blank o) (hx : FloatsOk x) (hna : NamedAll env) (hd : Distinct env)
    {s : Nat} {pds ds : List Decl} (he : env s = pds ++ ds) (vs : List Val) (hf : FitsAll env ds vs) (hp : plainAll vs = true)
    {fr : List Frame} (hfr : readsFields fr = true) {k : Nat} {st : WSt} (hs : Ok k st) (ts : List Token)
    (hend : ∀ st', Ok k st' → ∃ t T, R x fr (write x o st' ts) = t :: T ∧ t.kind = .structEnd)
    (xs : List Val) (hxs : xs.length = pds.length) :
    ∃ st', Ok k st' ∧ ∃ N, ∀ n, N ≤ n →
      (readables env ds vs = true → ingestLoop env ig n s (xs ++ ds.map fun d => d.ty.default)
          (R x fr (write x o st (walkFields env ds vs ++ ts))) =
        .ok (xs ++ backFields x o env ds vs, (R x fr (write x o st' ts)).tail)) ∧
      (readables env ds vs = false → ingestLoop env ig n s (xs ++ ds.map fun d => d.ty.default)
          (R x fr (write x o st (walkFields env ds vs ++ ts))) = .err) := by
  cases vs with
  | nil =>
    cases hf
    refine ⟨st, hs, 1, fun n hn' => ⟨fun _ => ?_, by simp [readables]⟩⟩
    obtain ⟨n, rfl⟩ : ∃ m, n = m + 1 := ⟨n - 1, by omega⟩
    obtain ⟨t, T, h1, h2⟩ := hend st hs
    simp only [walkFields, List.nil_append, h1, ingestLoop, h2, backFields, List.map_nil, List.tail_cons]
  | cons v vs =>
    cases hf with
    | @cons d ds _ _ hv hvs =>
      have hdm : d ∈ env s := by rw [he]; simp
      obtain ⟨hid, hen⟩ := hna s d hdm
      have hnd := hd s
      rw [he, List.map_append, List.map_cons, List.nodup_append] at hnd
      have hnot : d.name ∉ pds.map (·.name) := fun h => hnd.2.2 _ h _ (by simp) rfl
      simp only [plainAll, Bool.and_eq_true] at hp
      obtain ⟨st1, hs1, hok, hbad⟩ := tfield hb hx hna hd hid hen v hv hp.1 hfr hs (walkFields env ds vs ++ ts)
      obtain ⟨st2, hs2, N2, hN2⟩ := tfields hb hx hna hd (s := s) (pds := pds ++ [d]) (ds := ds) (by rw [he]; simp) vs hvs hp.2
        hfr hs1 ts hend (xs ++ [back x o env d.ty v]) (by simp [hxs])
      have hidx : fieldIdx (env s) d.name = some pds.length := by
        unfold fieldIdx
        rw [he, List.findIdx?_eq_some_iff_getElem]
        refine ⟨by simp, by simp, fun j hj => ?_⟩
        simp only [decide_eq_true_eq]
        intro hc
        apply hnot
        rw [List.getElem_append_left hj] at hc
        exact List.mem_map.2 ⟨_, List.getElem_mem hj, hc⟩
      refine ⟨st2, hs2, ?_⟩
      simp only [walkFields, List.append_assoc]
      by_cases hr : readable env d.ty v = true
      · obtain ⟨tok, T, h1, h2, h3, N1, hN1⟩ := hok hr
        refine ⟨N1 + N2 + 2, fun n hn' => ?_⟩
        obtain ⟨n, rfl⟩ : ∃ m, n = m + 1 := ⟨n - 1, by omega⟩
        rw [h1, ingestLoop]
        simp only [h2, h3, hidx]
        rw [show (env s)[pds.length]? = some d by rw [he]; simp,
          show (xs ++ (d :: ds).map fun d => d.ty.default)[pds.length]? = some d.ty.default by rw [← hxs]; simp]
        simp only
        rw [hN1 n (by omega)]
        simp only
        have h5 := hN2 n (by omega)
        rw [show (xs ++ (d :: ds).map fun d => d.ty.default).set pds.length (back x o env d.ty v) =
          xs ++ [back x o env d.ty v] ++ ds.map fun d => d.ty.default by
            rw [← hxs]; simp]
        refine ⟨fun hrs => ?_, fun hrs => ?_⟩
        · rw [h5.1 (by simpa [readables, hr] using hrs)]
          simp [backFields]
        · exact h5.2 (by simpa [readables, hr] using hrs)
      · have hr := Bool.eq_false_iff.2 hr
        rcases hbad hr with h1 | ⟨tok, T, h1, h2, h3, N1, hN1⟩
        · refine ⟨1, fun n hn' => ⟨by simp [readables, hr], fun _ => ?_⟩⟩
          obtain ⟨n, rfl⟩ : ∃ m, n = m + 1 := ⟨n - 1, by omega⟩
          rw [h1, ingestLoop]
        · refine ⟨N1 + 1, fun n hn' => ⟨by simp [readables, hr], fun _ => ?_⟩⟩
          obtain ⟨n, rfl⟩ : ∃ m, n = m + 1 := ⟨n - 1, by omega⟩
          rw [h1, ingestLoop]
          simp only [h2, h3, hidx]
          rw [show (env s)[pds.length]? = some d by rw [he]; simp,
            show (xs ++ (d :: ds).map fun d => d.ty.default)[pds.length]? = some d.ty.default by rw [← hxs]; simp]
          simp only
          rw [hN1 n (by omega)]
termination_by sizeOf vs

end

end

end Claw.Text
