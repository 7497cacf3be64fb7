import Verif.Lemmas.TextBack
import Verif.Lemmas.TextComment
import Verif.Props.JsonBack

/-!
# C81 to C84: text: strings, reading a struct back, what Unmarshal accepts, comments
-/

namespace Claw.Text

open Claw.Idl (FT Out numeral)
open Claw.Tok
open Claw.Json (Scalar encodeRune runes repaired special base64 Utf8 repaired_utf8 oneField oneField_distinct ascii_utf8)

set_option linter.unusedSimpArgs false

/-! ## C82 -/

/-- The exact result. -/
theorem unmarshal_marshal {x : Ext} {o : Opts} {env : Env} (hb : Blank o) (hx : FloatsOk x) (hna : NamedAll env)
    (hd : Distinct env) (ig : Bool) {s : Nat} {fs : List Val} (hf : FitsAll env (env s) fs) (hp : plainAll fs = true) :
    unmarshal x env ig s (fresh env s) (marshal x o env s fs) =
      if readables env (env s) fs then .ok (backFields x o env (env s) fs) else .err := by
  have hw : marshal x o env s fs =
      write x o { stack := [true], top := false } (walkFields env (env s) fs ++ [{ kind := .structEnd }]) := rfl
  obtain ⟨st', hst', N, hN⟩ := tfields (x := x) (o := o) (ig := ig) hb hx hna hd (s := s) (pds := []) (ds := env s) rfl fs hf hp
    (fr := [.root]) rfl (k := 0) (st := { stack := [true], top := false }) ⟨rfl, rfl, rfl⟩ [{ kind := .structEnd }]
    (by
      intro st' h
      have hdep : st'.depth = 0 := h.depth
      refine ⟨{ kind := .structEnd }, [], ?_, rfl⟩
      rw [write, write]
      simp [hdep]
      rfl) [] rfl
  unfold unmarshal ingest tokens
  rw [ingest_of_large (r := if readables env (env s) fs then
    .ok (backFields x o env (env s) fs, (R x [.root] (write x o st' [{ kind := .structEnd }])).tail) else .err)]
  · cases readables env (env s) fs <;> rfl
  · refine ⟨N + 1, fun n hn' => ?_⟩
    obtain ⟨n, rfl⟩ : ∃ m, n = m + 1 := ⟨n - 1, by omega⟩
    have h1 := hN n (by omega)
    simp only [List.nil_append] at h1
    rw [ingestFrom]
    simp only [ne_eq, not_true_eq_false, if_false]
    rw [show fresh env s = (env s).map (fun d => d.ty.default) from rfl, hw]
    by_cases hr : readables env (env s) fs = true
    · rw [if_pos hr]; exact h1.1 hr
    · rw [if_neg hr]; exact h1.2 (Bool.eq_false_iff.2 hr)

/-- C82, what really happens, for every declaration and every value: Marshal writes a text; if there is a list, a map, an Any, a
nil struct or a uint64 from 2^63 up anywhere in the struct, Unmarshal refuses the text; otherwise it succeeds with the values
`back` says.  Missing: maps whose first key has white space. -/
theorem C82_result_partial {x : Ext} {o : Opts} {env : Env} (hb : Blank o) (hx : FloatsOk x) (hna : NamedAll env)
    (hd : Distinct env) (ig : Bool) {s : Nat} {fs : List Val} (hf : FitsAll env (env s) fs) (hp : plainAll fs = true) :
    unmarshal x env ig s (fresh env s) (marshal x o env s fs) =
      if readables env (env s) fs then .ok (backFields x o env (env s) fs) else .err :=
  unmarshal_marshal hb hx hna hd ig hf hp

/-- C82 where it holds: structs of false, integers below 2^63, declared enums, floats64 that are no whole number below 10^6, UTF-8
strings in which no quote precedes the first white space, bytes if written in hex, and structs of these, at any depth, come
back as they were. -/
theorem C82_unchanged_partial {x : Ext} {o : Opts} {env : Env} (hb : Blank o) (hx : FloatsOk x) (hna : NamedAll env)
    (hd : Distinct env) (ig : Bool) {s : Nat} {fs : List Val} (hf : FitsAll env (env s) fs)
    (hk : KeptFields o env (env s) fs) : unmarshal x env ig s (fresh env s) (marshal x o env s fs) = .ok fs := by
  obtain ⟨h1, h2⟩ := backFields_kept hx fs hf hk
  rw [unmarshal_marshal hb hx hna hd ig hf (plainAll_kept fs hf hk), if_pos h2, h1]

/-- C82 is violated by every struct type with a list, a map or an Any, and by every struct with a struct that is not set: whatever
the value of that field is, even if it is empty, Unmarshal refuses what Marshal wrote. -/
theorem C82_container_refused {x : Ext} {o : Opts} {env : Env} (hb : Blank o) (hx : FloatsOk x) (hna : NamedAll env)
    (hd : Distinct env) (ig : Bool) {s : Nat} {fs : List Val} (hf : FitsAll env (env s) fs) (hp : plainAll fs = true)
    {d : Decl} {v : Val} (hm : (d, v) ∈ (env s).zip fs) (h : container d.ty = true ∨ v = .null) :
    unmarshal x env ig s (fresh env s) (marshal x o env s fs) = .err := by
  rw [unmarshal_marshal hb hx hna hd ig hf hp, readables_false hf hm h]
  rfl

theorem oneField_named {ty : Ty} (h : ∀ t e, (ty = .num t (some e) ∨ ty = .listNum t (some e)) → NamedEnum e) :
    NamedAll (oneField ty) := by
  intro s d hd
  simp only [oneField, List.mem_cons, List.not_mem_nil, or_false] at hd
  subst hd
  exact ⟨ident_x, h⟩

/-- What comes back of the field of a struct with one field. -/
theorem one_back {x : Ext} {o : Opts} (hb : Blank o) (hx : FloatsOk x) {ty : Ty}
    (hn : ∀ t e, (ty = .num t (some e) ∨ ty = .listNum t (some e)) → NamedEnum e) {v : Val}
    (hf : Fits (oneField ty) ty v) (hp : plainKeys v = true) (ig : Bool) :
    unmarshal x (oneField ty) ig 0 (fresh (oneField ty) 0) (marshal x o (oneField ty) 0 [v]) =
      if readable (oneField ty) ty v then .ok [back x o (oneField ty) ty v] else .err := by
  have := unmarshal_marshal hb hx (oneField_named hn) (oneField_distinct ty) ig (s := 0) (fs := [v]) (.cons hf .nil)
    (by simp [plainAll, hp])
  rw [this]
  simp [readables, backFields, oneField]

/-- C82 is violated by booleans: true comes back as false. -/
theorem C82_true_lost {x : Ext} {o : Opts} (hb : Blank o) (hx : FloatsOk x) (ig : Bool) :
    unmarshal x (oneField (.num .bool none)) ig 0 (fresh (oneField (.num .bool none)) 0)
      (marshal x o (oneField (.num .bool none)) 0 [.num 1]) = .ok [.num 0] :=
  one_back (ty := .num .bool none) (v := .num 1) hb hx (by simp) (.num (.inr rfl)) rfl ig

/-- C82 is violated by every uint64 from 2^63 up: Unmarshal refuses the text. -/
theorem C82_large_refused {x : Ext} {o : Opts} (hb : Blank o) (hx : FloatsOk x) (d : UInt64) (h : 2 ^ 63 ≤ d.toNat) (ig : Bool) :
    unmarshal x (oneField (.num .uint64 none)) ig 0 (fresh (oneField (.num .uint64 none)) 0)
      (marshal x o (oneField (.num .uint64 none)) 0 [.num d]) = .err := by
  rw [one_back (ty := .num .uint64 none) (v := .num d) hb hx (by simp) (.num trivial) rfl ig]
  simp [readable, numReadable, h]

/-- C82 is violated by floats: every float64 that is a whole number below 10^6 in magnitude, other than plus zero, comes back as
another one. -/
theorem C82_whole64_lost {x : Ext} {o : Opts} (hb : Blank o) (hx : FloatsOk x) (d : UInt64) (h0 : d ≠ 0)
    (hs : special .float64 d = false) (hw : wholeFloat .float64 d = true) (ig : Bool) :
    ∃ d', d' ≠ d ∧ unmarshal x (oneField (.num .float64 none)) ig 0 (fresh (oneField (.num .float64 none)) 0)
      (marshal x o (oneField (.num .float64 none)) 0 [.num d]) = .ok [.num d'] := by
  refine ⟨_, whole64_ne h0 hw hs, ?_⟩
  rw [one_back (ty := .num .float64 none) (v := .num d) hb hx (by simp) (.num trivial) rfl ig]
  simp only [readable, numReadable, back, backNum, hs, hw, Bool.false_eq_true, if_false, if_true]
  rfl

/-- The same for float32. -/
theorem C82_whole32_lost {x : Ext} {o : Opts} (hb : Blank o) (hx : FloatsOk x) (y : UInt32) (h0 : y ≠ 0)
    (hs : special .float32 y.toUInt64 = false) (hw : wholeFloat .float32 y.toUInt64 = true) (ig : Bool) :
    ∃ d', d' ≠ y.toUInt64 ∧ unmarshal x (oneField (.num .float32 none)) ig 0 (fresh (oneField (.num .float32 none)) 0)
      (marshal x o (oneField (.num .float32 none)) 0 [.num y.toUInt64]) = .ok [.num d'] := by
  refine ⟨_, whole32_ne h0 hw hs, ?_⟩
  rw [one_back (ty := .num .float32 none) (v := .num y.toUInt64) hb hx (by simp) (.num ⟨y, rfl⟩) rfl ig]
  simp only [readable, numReadable, back, backNum, hs, hw, Bool.false_eq_true, if_false, if_true]
  rfl

/-- C82 is violated by infinities and NaN: they come back as 0. -/
theorem C82_special_lost {x : Ext} {o : Opts} (hb : Blank o) (hx : FloatsOk x) (d : UInt64) (hs : special .float64 d = true)
    (ig : Bool) :
    unmarshal x (oneField (.num .float64 none)) ig 0 (fresh (oneField (.num .float64 none)) 0)
      (marshal x o (oneField (.num .float64 none)) 0 [.num d]) = .ok [.num 0] := by
  rw [one_back (ty := .num .float64 none) (v := .num d) hb hx (by simp) (.num trivial) rfl ig]
  simp only [readable, numReadable, back, backNum, hs, if_true]
  rfl

/-- C82 is violated by bytes, unless hex is asked for: all but the empty ones come back as other bytes, namely the text of their
base64 encoding. -/
theorem C82_bytes_lost {x : Ext} {o : Opts} (hb : Blank o) (hx : FloatsOk x) (ho : o.hexBytes = false) (b : Bytes) (hne : b ≠ [])
    (ig : Bool) : base64 b ≠ b ∧
    unmarshal x (oneField .bytes) ig 0 (fresh (oneField .bytes) 0) (marshal x o (oneField .bytes) 0 [.bin b]) =
      .ok [.bin (base64 b)] := by
  constructor
  · intro h
    have := Claw.Json.base64_length b hne
    rw [h] at this
    omega
  · rw [one_back hb hx (by simp) .bytes rfl ig]
    simp [readable, back, ho]

/-- C82 is violated by enum numbers that have no name: they come back as 0, unless numbers are asked for. -/
theorem C82_unnamed_enum_lost {x : Ext} {o : Opts} (hb : Blank o) (hx : FloatsOk x) (ho : o.useNums = false) (t : FT) (e : EnumT)
    (he : NamedEnum e) (d : UInt64) (h : Holds t d) (hname : nameOf e d = []) (ig : Bool) :
    unmarshal x (oneField (.num t (some e))) ig 0 (fresh (oneField (.num t (some e))) 0)
      (marshal x o (oneField (.num t (some e))) 0 [.num d]) = .ok [.num 0] := by
  rw [one_back hb hx (by
    intro t' e' h
    rcases h with h | h
    · simp only [Ty.num.injEq, Option.some.injEq] at h
      rw [← h.2]; exact he
    · cases h) (.num h) rfl ig]
  simp [readable, numReadable, back, backNum, ho, hname]

/-! ## C81 -/

/-- C81, the escapes: reading a quoted string gives the string with U+FFFD for bytes that are no UTF-8. -/
theorem C81_escape_partial (s : Bytes) : unquote (quoted s) = some (repaired s) ∧ (Utf8 s → unquote (quoted s) = some s) :=
  ⟨unquote_quoted s, fun h => by rw [unquote_quoted, repaired_utf8 h]⟩

/-- C81 where it holds: a UTF-8 string in which the first white space follows neither a quote nor a quote and a comma comes back
as it was. -/
theorem C81_unchanged_partial {x : Ext} {o : Opts} (hb : Blank o) (hx : FloatsOk x) (s : Bytes) (hu : Utf8 s)
    (hq : quoteSpace s = false) (ig : Bool) :
    unmarshal x (oneField .str) ig 0 (fresh (oneField .str) 0) (marshal x o (oneField .str) 0 [.bin s]) = .ok [.bin s] := by
  rw [one_back hb hx (by simp) .str rfl ig]
  simp [readable, back, strBack, hq, repaired_utf8 hu]

/-- C81 is violated by all other strings, without an error. -/
theorem C81_quote_space_lost {x : Ext} {o : Opts} (hb : Blank o) (hx : FloatsOk x) (s : Bytes) (hq : quoteSpace s = true) (ig : Bool) :
    ∃ s', s' ≠ s ∧
      unmarshal x (oneField .str) ig 0 (fresh (oneField .str) 0) (marshal x o (oneField .str) 0 [.bin s]) = .ok [.bin s'] :=
  ⟨_, strBack_ne hq, by rw [one_back hb hx (by simp) .str rfl ig]; rfl⟩

-- `she said "hi" twice` is kept, `"hi" she said` is not
example : quoteSpace (lit "she said \"hi\" twice") = false ∧ quoteSpace (lit "\"hi\" she said") = true ∧
    strBack (lit "\"hi\" she said") = lit "\"hi\\" := by decide +kernel

/-! ### A struct that is kept -/

/-- Floats written in unary: `FloatsOk` can be met. -/
def exExt : Ext where
  floatText _ d := 48 :: 46 :: List.replicate d.toNat 48
  parseFloat w := some (w.length - 2).toUInt64
  anyText _ _ := []

theorem exExt_ok : FloatsOk exExt where
  form t d _ _ := by
    refine ⟨?_, .inl (by simp [exExt]), 48, _, rfl, .inl ⟨by decide, by decide⟩⟩
    intro c hc
    simp only [exExt, List.mem_cons, List.mem_replicate] at hc
    rcases hc with rfl | rfl | ⟨_, rfl⟩
    · exact .inl ⟨by decide, by decide⟩
    · exact .inr (.inr (.inr (.inl rfl)))
    · exact .inl ⟨by decide, by decide⟩
  parsed t d _ _ := ⟨_, rfl⟩
  same d _ _ := by simp [exExt]

theorem exOpts_blank (u h : Bool) : Blank { useNums := u, hexBytes := h } := by
  intro c hc
  simp only [List.mem_cons, List.not_mem_nil, or_false] at hc
  rcases hc with rfl | rfl | rfl | rfl <;> exact .inl rfl

/-- A struct with a number, a float, a string, bytes and a struct. -/
def exDecls : Env
  | 0 => [⟨lit "n", .num .int16 none⟩, ⟨lit "f", .num .float64 none⟩, ⟨lit "s", .str⟩, ⟨lit "b", .bytes⟩, ⟨lit "t", .struct 1⟩]
  | 1 => [⟨lit "n", .num .uint64 none⟩]
  | _ => []

theorem ident_letter {c : UInt8} (h1 : 97 ≤ c.toNat) (h2 : c.toNat ≤ 122) : Ident [c] :=
  ⟨c.toNat, [], by rw [enc_cons, encodeRune_ascii (by omega)]; rfl, by
    intro r hr
    rw [List.mem_singleton] at hr
    subst hr
    exact ⟨scalar_ascii (by omega), isSpace_graphic (by omega) (by omega), .inr (.inr (.inl ⟨h1, h2⟩))⟩, by omega⟩

theorem exDecls_named : NamedAll exDecls := by
  intro s d hd
  match s with
  | 0 =>
    simp only [exDecls, List.mem_cons, List.not_mem_nil, or_false] at hd
    rcases hd with rfl | rfl | rfl | rfl | rfl <;> exact ⟨ident_letter (by decide) (by decide), by simp⟩
  | 1 =>
    simp only [exDecls, List.mem_cons, List.not_mem_nil, or_false] at hd
    subst hd
    exact ⟨ident_letter (by decide) (by decide), by simp⟩
  | _ + 2 => simp [exDecls] at hd

theorem exDecls_distinct : Distinct exDecls := by
  intro s
  match s with
  | 0 => decide
  | 1 => decide
  | _ + 2 => simp [exDecls]

-- {n: -2, f: 1.5, s: "a \"b\" c", b: 0x00ff, t: {n: 7}}
example : unmarshal exExt exDecls false 0 (fresh exDecls 0) (marshal exExt { hexBytes := true } exDecls 0
      [.num 0xfffffffffffffffe, .num 0x3FF8000000000000, .bin (lit "a \"b\" c"), .bin [0, 255], .obj [.num 7]]) =
    .ok [.num 0xfffffffffffffffe, .num 0x3FF8000000000000, .bin (lit "a \"b\" c"), .bin [0, 255], .obj [.num 7]] := by
  have h1 : special .float64 0x3FF8000000000000 = false := by decide
  have h2 : wholeFloat .float64 0x3FF8000000000000 = false := by decide +kernel
  have h3 : quoteSpace (lit "a \"b\" c") = false := by decide +kernel
  have h4 : Utf8 (lit "a \"b\" c") := ascii_utf8 _ (by decide)
  have hk : KeptFields { hexBytes := true } exDecls (exDecls 0)
      [.num 0xfffffffffffffffe, .num 0x3FF8000000000000, .bin (lit "a \"b\" c"), .bin [0, 255], .obj [.num 7]] := by
    simp only [exDecls, KeptFields, Kept, KeptNum]
    exact ⟨trivial, .inr ⟨h1, h2⟩, ⟨h4, h3⟩, .inl trivial, ⟨by decide, trivial⟩, trivial⟩
  exact C82_unchanged_partial (exOpts_blank false true) exExt_ok exDecls_named exDecls_distinct false
    (.cons (.num ⟨-2, rfl⟩) (.cons (.num trivial) (.cons .str (.cons .bytes (.cons (.obj (.cons (.num trivial) .nil)) .nil))))) hk

-- the struct not set
example : unmarshal exExt exDecls false 0 (fresh exDecls 0) (marshal exExt {} exDecls 0
      [.num 1, .num 0, .bin [], .bin [], .null]) = .err :=
  C82_container_refused (d := ⟨lit "t", .struct 1⟩) (v := .null) (exOpts_blank false false) exExt_ok exDecls_named exDecls_distinct false
    (.cons (.num ⟨1, rfl⟩) (.cons (.num trivial) (.cons .str (.cons .bytes (.cons .nil .nil))))) rfl
    (by simp [exDecls]) (.inr rfl)

-- 3.0 as a float64 and as a float32
example : special .float64 0x4008000000000000 = false ∧ wholeFloat .float64 0x4008000000000000 = true ∧
    special .float32 (0x40400000 : UInt32).toUInt64 = false ∧ wholeFloat .float32 (0x40400000 : UInt32).toUInt64 = true := by
  decide +kernel

/-! ## C83 -/

/-- The line `x: v`. -/
def lineOf (v : Bytes) : Bytes := lit "x: " ++ v ++ [10]

/-- The tokens of a text that begins with the line `x: v`. -/
theorem tokens_line (x : Ext) {v w : Bytes} {ws : List Bytes} (hv : 10 ∉ v) (hw : words v = w :: ws) (hw10 : w ≠ [10]) (T : Bytes) :
    tokens x (lineOf v ++ T) = { kind := .structStart, name := lit "root" } ::
      cont x (fieldValue x [.root] (lit "x") (fieldRaw [] (lit "x") v) w (ws ++ [[10]])) (lines T) := by
  unfold tokens
  congr 1
  have h1 : lineOf v ++ T = fieldRaw [] (lit "x") v ++ 10 :: T := by
    simp [lineOf, fieldRaw, show lit "x: " = [120, 58, 32] from rfl, show lit "x" = [120] from rfl]
  rw [h1, lines_line (fieldRaw_no_newline (by intro c hc; simp at hc) ident_x hv),
    run_field rfl (by intro c hc; simp at hc) ident_x hw hw10]

theorem number_solid (n : Int) : Solid (numeral n ++ [44]) :=
  solid_append (numText_solid (numeral_numText n)) (solid_graphic (by simp))

theorem number_ne (n : Int) : numeral n ++ [44] ≠ [10] := by
  intro h
  have := solid_no_newline (number_solid n)
  rw [h] at this
  simp at this

/-- A number for a scalar field of a struct with one field; what else is on the line does not matter. -/
theorem number_line (x : Ext) (ig : Bool) (ty : Ty) (old : Val) (n : Int) (hn : -2 ^ 63 ≤ n ∧ n < 2 ^ 63) {v : Bytes}
    {ws : List Bytes} (hv : 10 ∉ v) (hw : words v = (numeral n ++ [44]) :: ws) (T : Bytes) :
    unmarshal x (oneField ty) ig 0 [old] (lineOf v ++ T) = ingest (oneField ty) ig 0 [old]
      ({ kind := .structStart, name := lit "root" } ::
        { kind := .field, name := lit "x", data := (Int64.ofInt n).toUInt64 } :: run x false [.root] (lines T)) := by
  unfold unmarshal
  rw [tokens_line x hv hw (number_ne n), fieldValue_number (numeral_numText n), numberTok_numeral, if_pos hn]
  rfl

theorem run_close (x : Ext) (after : Bytes) : run x false [.root] (lines (lit "}\n" ++ after)) = [{ kind := .structEnd }] := by
  rw [show lit "}\n" ++ after = [125] ++ 10 :: after from rfl, lines_line (by decide)]
  have h : items [125] = [[125], [10]] := by decide
  rw [run]
  simp only [step, h]
  rfl

/-- C83 is violated: whatever follows a line with a closing brace is ignored. -/
theorem C83_rest_ignored (x : Ext) (ig : Bool) (t : FT) (old : UInt64) (n : Int) (hn : -2 ^ 63 ≤ n ∧ n < 2 ^ 63) (after : Bytes) :
    unmarshal x (oneField (.num t none)) ig 0 [.num old] (lineOf (numeral n ++ [44]) ++ (lit "}\n" ++ after)) =
      .ok [.num (norm t (Int64.ofInt n).toUInt64)] := by
  rw [number_line x ig _ _ n hn (solid_no_newline (number_solid n)) (words_solid (number_solid n) (by simp)), run_close]
  rfl

/-- C83 is violated: whatever follows the value on its line is ignored. -/
theorem C83_line_rest_ignored (x : Ext) (ig : Bool) (t : FT) (old : UInt64) (n : Int) (hn : -2 ^ 63 ≤ n ∧ n < 2 ^ 63) (more : Bytes)
    (hm : 10 ∉ more) :
    unmarshal x (oneField (.num t none)) ig 0 [.num old] (lineOf ((numeral n ++ [44]) ++ 32 :: more)) =
      .ok [.num (norm t (Int64.ofInt n).toUInt64)] := by
  have h1 : 10 ∉ (numeral n ++ [44]) ++ 32 :: more := by
    have := solid_no_newline (number_solid n)
    simp only [List.mem_append, List.mem_cons, not_or] at *
    exact ⟨this, by decide, hm⟩
  have := number_line x ig (.num t none) (.num old) n hn h1 (words_split (number_solid n) (by simp) more) []
  rw [List.append_nil] at this
  rw [this]
  rfl

/-- C83 is violated: a number that is too large for a uint8 is reduced, without an error. -/
theorem C83_number_wraps (x : Ext) (ig : Bool) (old : UInt64) (n : Nat) (hn : n < 2 ^ 63) :
    unmarshal x (oneField (.num .uint8 none)) ig 0 [.num old] (lineOf (numeral n ++ [44])) = .ok [.num (n % 256).toUInt64] := by
  have := number_line x ig (.num .uint8 none) (.num old) n (by omega) (solid_no_newline (number_solid n))
    (words_solid (number_solid n) (by simp)) []
  rw [List.append_nil] at this
  rw [this]
  show Out.ok [Val.num ((Int64.ofInt n).toUInt64).toUInt8.toUInt64] = _
  rw [Int64.ofInt_eq_ofNat]
  congr 3
  apply UInt64.toNat_inj.1
  simp
  omega

/-- C83 is violated: a number for a string is taken for the empty string. -/
theorem C83_number_for_string (x : Ext) (ig : Bool) (old : Bytes) (n : Int) (hn : -2 ^ 63 ≤ n ∧ n < 2 ^ 63) :
    unmarshal x (oneField .str) ig 0 [.bin old] (lineOf (numeral n ++ [44])) = .ok [.bin []] := by
  have := number_line x ig .str (.bin old) n hn (solid_no_newline (number_solid n)) (words_solid (number_solid n) (by simp)) []
  rw [List.append_nil] at this
  rw [this]
  rfl

/-- C83 is violated: any identifier followed by a comma, for example a misspelled one, is taken for 0 where a number is asked for. -/
theorem C83_word_for_number (x : Ext) (ig : Bool) (t : FT) (old : UInt64) (w : Str) (hw : Ident w) :
    unmarshal x (oneField (.num t none)) ig 0 [.num old] (lineOf (w ++ [44])) = .ok [.num (norm t 0)] := by
  have hs : Solid (w ++ [44]) := solid_append (ident_solid hw) (solid_graphic (by simp))
  have hne : w ++ [44] ≠ [10] := by
    intro h
    have := solid_no_newline hs
    rw [h] at this
    simp at this
  have h1 := tokens_line x (solid_no_newline hs) (words_solid hs (by simp)) hne []
  rw [List.append_nil] at h1
  obtain ⟨c, r, rfl, hc, hd⟩ := ident_head hw
  have hcn : nameByte c := by
    refine ⟨identByte_ne hc (by decide), identByte_ne hc (by decide), identByte_ne hc (by decide), identByte_ne hc (by decide), ?_⟩
    intro h
    exact hd ⟨UInt8.le_iff_toNat_le.1 h.1, UInt8.le_iff_toNat_le.1 h.2⟩
  unfold unmarshal
  rw [h1, List.cons_append, fieldValue_enum (by rw [← List.cons_append]; exact comma_notKeyword _) hcn]
  rfl

/-- C83 is violated: a string for a number is taken for 0, whatever the string and the type of the number. -/
theorem C83_string_for_number (x : Ext) (ig : Bool) (t : FT) (old : UInt64) (b : Bytes) :
    unmarshal x (oneField (.num t none)) ig 0 [.num old] (lineOf (quoted b ++ [44])) = .ok [.num (norm t 0)] := by
  obtain ⟨r, ws, h1, h2⟩ := string_words (ind := []) (by intro c hc; simp at hc) ident_x b
  have hv : 10 ∉ quoted b ++ [44] := by simp [quoted_no_newline b]
  have h3 := tokens_line x hv h1 (by simp) []
  rw [List.append_nil] at h3
  have h4 : fieldValue x [.root] (lit "x") (fieldRaw [] (lit "x") (quoted b ++ [44])) (0x22 :: r) (ws ++ [[10]]) =
      ([{ kind := .field, name := lit "x", type := .string, bytes := strBack b }], some [.root]) := by
    rw [fieldValue_quoted (quote_notKeyword r), h2]
    rfl
  unfold unmarshal
  rw [h3, h4]
  rfl

/-- C83 is violated: a comma after a string in backquotes becomes part of it, with the backquote. -/
theorem C83_backquote_comma (x : Ext) (ig : Bool) (old : Bytes) (w : Bytes) (hw : Solid w) (hne : w ≠ []) (hb : 96 ∉ w) :
    unmarshal x (oneField .str) ig 0 [.bin old] (lineOf (96 :: w ++ [96, 44])) = .ok [.bin (w ++ [96, 44])] := by
  have hs : Solid (96 :: w ++ [96, 44]) :=
    solid_append (solid_append (a := [96]) (solid_graphic (by simp)) hw) (solid_graphic (by simp))
  have hq : 96 :: w ++ [96, 44] ≠ [10] := by simp
  have h1 := tokens_line x (solid_no_newline hs) (words_solid hs (by simp)) hq []
  rw [List.append_nil] at h1
  have h2 : trimByte 96 (96 :: w ++ [96, 44]) = w ++ [96, 44] := by
    cases w with
    | nil => simp at hne
    | cons c w =>
      have : c ≠ 96 := fun h => hb (by simp [h])
      simp [trimByte, this]
  have h3 : 2 ≤ ((96 :: w ++ [96, 44]).filter (· == 96)).length := by
    simp [List.filter_append, List.filter_cons]
  have h4 : fieldValue x [.root] (lit "x") (fieldRaw [] (lit "x") (96 :: w ++ [96, 44])) (96 :: w ++ [96, 44]) ([] ++ [[10]]) =
      ([{ kind := .field, name := lit "x", type := .string, bytes := w ++ [96, 44] }], some [.root]) := by
    have hk := comma_notKeyword (96 :: w ++ [96])
    rw [show 96 :: w ++ [96] ++ [44] = 96 :: w ++ [96, 44] by simp] at hk
    obtain ⟨k1, k2, k3, k4, k5, k6⟩ := hk
    unfold fieldValue
    rw [if_neg k1, if_neg k2, if_neg k3, if_neg k4, if_neg k5, if_neg k6, if_neg (by simp [Str.hasPrefix, List.isPrefixOf]),
      if_pos (by rfl), if_pos h3, h2]
    rfl
  unfold unmarshal
  rw [h1, h4]
  rfl

-- `x: 300,` for a uint8, `x: oops,` for a number, "x: `a`,"
example (ig : Bool) : unmarshal exExt (oneField (.num .uint8 none)) ig 0 [.num 0] (lit "x: 300,\n") = .ok [.num 44] := by
  rw [show lit "x: 300,\n" = lineOf (numeral (300 : Nat) ++ [44]) by decide +kernel]
  exact C83_number_wraps exExt ig 0 300 (by decide)

example : Ident (lit "x") ∧ Solid (lit "x") := ⟨ident_x, ident_solid ident_x⟩

/-! ## C84 -/

/-- C84 where it holds: a blank line, a comment line or a comment over lines may be put at the beginning of a text and after each of
its lines that no backquote and no asterisk precedes.  Missing: texts with a backquote or an asterisk before that line;
comments that start with `/*/`. -/
theorem C84_comments_partial (x : Ext) (env : Env) (ig : Bool) (s : Nat) (v : List Val) {f : Bytes} (hf : Filler f) (b : Bytes) :
    unmarshal x env ig s v (f ++ b) = unmarshal x env ig s v b ∧
    ∀ a, Plain a → unmarshal x env ig s v (a ++ [10] ++ f ++ b) = unmarshal x env ig s v (a ++ [10] ++ b) := by
  constructor
  · unfold unmarshal
    rw [(tokens_filler (a := []) (by intro c hc; simp at hc) hf b).2]
  · intro a ha
    unfold unmarshal
    rw [(tokens_filler ha hf b).1]

-- a comment over two lines
example : Filler (lit "  /* a\n b */ \n") :=
  .block (l := [32, 32]) (c := lit " a\n b ") (r := [32]) (by simp [BlankLine]) (by
    intro a b h
    have : (42 : UInt8) ∈ lit " a\n b " := by rw [h]; simp
    exact absurd this (by decide)) (by
    intro b h
    have : (lit " a\n b ").head? = some 47 := by rw [h]; rfl
    exact absurd this (by decide)) (by simp [BlankLine])

/-- C84 is violated: what follows a comment on its line is ignored, for example a field. -/
theorem C84_after_comment_lost (x : Ext) (env : Env) (ig : Bool) (s : Nat) (v : List Val) (c r : Bytes)
    (hc : 10 ∉ c) (hr : 10 ∉ r) (b : Bytes) :
    unmarshal x env ig s v (lit "/*" ++ c ++ lit "*/" ++ r ++ [10] ++ b) = unmarshal x env ig s v b := by
  unfold unmarshal tokens
  congr 2
  rw [show lit "/*" ++ c ++ lit "*/" ++ r ++ [10] ++ b = ([] ++ [47, 42] ++ (c ++ [42, 47] ++ r)) ++ 10 :: b by
      simp [show lit "/*" = [47, 42] from rfl, show lit "*/" = [42, 47] from rfl],
    lines_line (by simp [hc, hr]), run]
  obtain ⟨w, hw⟩ := items_comment (l := []) (by intro c hc; simp at hc) (.inr rfl) (c ++ [42, 47] ++ r)
  have h2 : Str.hasPrefix (lit "//") (47 :: 42 :: w) = false := rfl
  have h3 : Str.hasPrefix (lit "/*") (47 :: 42 :: w) = true := rfl
  have h4 : Str.contains ([] ++ [47, 42] ++ (c ++ [42, 47] ++ r)) (lit "*/") = true :=
    (contains_iff _ _).2 ⟨[47, 42] ++ c, r, by simp [show lit "*/" = [42, 47] from rfl]⟩
  simp only [inRaw, items_comment_ne hw, hw, h2, h3, h4, Bool.not_false, Bool.not_true, Bool.and_self, Bool.and_false,
    Bool.false_eq_true, if_false, if_true]

/-- C84 is violated: a comment that starts with `/*/` ends with its first line.  The text is `/*/`, a line, `*/` and `x: 5,`. -/
theorem C84_short_comment (x : Ext) (ig : Bool) (old : UInt64) :
    unmarshal x (oneField (.num .int8 none)) ig 0 [.num old] (lit "/*/\nno field\n*/\nx: 5,\n") = .err := rfl

end Claw.Text
