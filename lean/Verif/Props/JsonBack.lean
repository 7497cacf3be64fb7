import Verif.Lemmas.JsonBack
import Verif.Props.Json

/-!
# C77 to C79: reading JSON back, what Unmarshal accepts, the keys of maps
-/

namespace Claw.Json

open Claw.Idl (FT Out)
open Claw.Tok

set_option linter.unusedSimpArgs false

/-! ## C77 -/

/-- The exact result, whatever follows the text. -/
theorem unmarshal_marshal {env : Env} (hn : Named env) (hd : Distinct env) {u : Bool} {dec : AnyDec} (hdec : DecFits env dec)
    (n : Nat) (big : FT → UInt64 → Int) (ig : Bool) {s : Nat} {fs : List Val} (hf : FitsAll env (env s) fs) :
    ∃ ls, marshal env u dec n s fs = .ok ls ∧ ∀ after,
      unmarshal big env ig s (fresh env s) (ls ++ after) =
        if readables fs then .ok (backFields env big u (env s) fs) else .err := by
  obtain ⟨al, hal, hal'⟩ := anyLex_ok (u := u) hn hdec n
  refine ⟨_, marshal_out hal hn hf, fun after => ?_⟩
  obtain ⟨N, hN⟩ := jread_fields (big := big) (u := u) (ig := ig) hn hd hal' (s := s) (pds := []) (ds := env s) rfl fs hf true []
    (by simp) (by simp) [] [] [] rfl after
  have hs : toToks big [] [] (decode [] (.lbrace :: (outFields env u al true (env s) fs ++ [.rbrace]) ++ after)) =
      { kind := .structStart, name := lit "root" } ::
        stream big [before true []] [(true, true)] [] (outFields env u al true (env s) fs ++ .rbrace :: after) := by
    have := stream_lbrace (big := big) (lv := []) (st := []) rfl [] (outFields env u al true (env s) fs ++ .rbrace :: after)
    simpa [stream, announce, before] using this
  unfold unmarshal ingest
  rw [hs, ingest_of_large (r := if readables fs then
    .ok (backFields env big u (env s) fs, stream big (done []) (setKey []) [] after) else .err)]
  · cases readables fs <;> rfl
  · refine ⟨N + 1, fun n hn' => ?_⟩
    obtain ⟨n, rfl⟩ : ∃ m, n = m + 1 := ⟨n - 1, by omega⟩
    have h1 := hN n (by omega)
    simp only [List.nil_append] at h1
    rw [ingestFrom]
    simp only [ne_eq, not_true_eq_false, if_false]
    rw [show fresh env s = (env s).map (fun d => d.ty.default) from rfl]
    by_cases hr : readables fs = true
    · rw [h1.1 hr, if_pos hr]
    · rw [h1.2 (Bool.eq_false_iff.2 hr), if_neg hr]

/-- C77, what really happens, for every declaration and every value: Marshal succeeds; if there is a map entry, an Any or
a list of two structs anywhere in the struct, Unmarshal of what it wrote fails; otherwise it succeeds with the
values `back` says. -/
theorem C77_result_partial {env : Env} (hn : Named env) (hd : Distinct env) {u : Bool} {dec : AnyDec} (hdec : DecFits env dec)
    (n : Nat) (big : FT → UInt64 → Int) (ig : Bool) {s : Nat} {fs : List Val} (hf : FitsAll env (env s) fs) :
    ∃ ls, marshal env u dec n s fs = .ok ls ∧
      unmarshal big env ig s (fresh env s) ls =
        if readables fs then .ok (backFields env big u (env s) fs) else .err := by
  obtain ⟨ls, h1, h2⟩ := unmarshal_marshal hn hd (u := u) hdec n big ig hf
  refine ⟨ls, h1, ?_⟩
  have := h2 []
  rwa [List.append_nil] at this

/-- C77 where it holds: structs of booleans, integers below 2^63, declared enums, UTF-8 strings, structs, and lists of
these with at most one struct to a list, at any depth, come back as they were. -/
theorem C77_unchanged_partial {env : Env} (hn : Named env) (hd : Distinct env) {u : Bool} {dec : AnyDec} (hdec : DecFits env dec)
    (n : Nat) (big : FT → UInt64 → Int) (ig : Bool) {s : Nat} {fs : List Val} (hf : FitsAll env (env s) fs)
    (hr : readables fs = true) (hk : KeptFields env u (env s) fs) :
    ∃ ls, marshal env u dec n s fs = .ok ls ∧ unmarshal big env ig s (fresh env s) ls = .ok fs := by
  obtain ⟨ls, h1, h2⟩ := C77_result_partial hn hd (u := u) hdec n big ig hf
  rw [if_pos hr, backFields_kept fs hf hk] at h2
  exact ⟨ls, h1, h2⟩

/-- C77 is violated by maps, Any values and lists of structs: what Marshal wrote is refused if there is any map entry, any
Any or any list of two structs, at any depth. -/
theorem C77_refused {env : Env} (hn : Named env) (hd : Distinct env) {u : Bool} {dec : AnyDec} (hdec : DecFits env dec)
    (n : Nat) (big : FT → UInt64 → Int) (ig : Bool) {s : Nat} {fs : List Val} (hf : FitsAll env (env s) fs)
    (hr : readables fs = false) :
    ∃ ls, marshal env u dec n s fs = .ok ls ∧ unmarshal big env ig s (fresh env s) ls = .err := by
  obtain ⟨ls, h1, h2⟩ := C77_result_partial hn hd (u := u) hdec n big ig hf
  rw [hr] at h2
  exact ⟨ls, h1, h2⟩

/-- A struct with one field. -/
def oneField (ty : Ty) : Env := fun _ => [⟨lit "x", ty⟩]

theorem oneField_named (ty : Ty) : Named (oneField ty) := by
  intro s d hd
  simp only [oneField, List.mem_cons, List.not_mem_nil, or_false] at hd
  subst hd
  exact ⟨by show lit "x" ≠ []; decide, ascii_utf8 (lit "x") (by decide)⟩

theorem oneField_distinct (ty : Ty) : Distinct (oneField ty) := by
  intro s
  simp [oneField]

/-- No Any is known. -/
def noDec : AnyDec := fun _ _ => none

theorem noDec_fits (env : Env) : DecFits env noDec := by
  intro hash data s fs name h
  simp [noDec] at h

/-- What comes back of the field of a struct with one field. -/
theorem one_back {ty : Ty} {v : Val} (hf : Fits (oneField ty) ty v) (hr : readable v = true) (u : Bool) (big : FT → UInt64 → Int)
    (ig : Bool) : ∃ ls, marshal (oneField ty) u noDec 0 0 [v] = .ok ls ∧
      unmarshal big (oneField ty) ig 0 (fresh (oneField ty) 0) ls = .ok [back (oneField ty) big u ty v] := by
  obtain ⟨ls, h1, h2⟩ := C77_result_partial (oneField_named ty) (oneField_distinct ty) (u := u) (noDec_fits _) 0 big ig
    (s := 0) (fs := [v]) (.cons hf .nil)
  rw [if_pos (by simp [readables, hr])] at h2
  exact ⟨ls, h1, h2⟩

/-- C77 is violated by floats: every float64 that is a number other than plus zero, of magnitude less than 2^53, comes back as
another one, without an error. -/
theorem C77_float64_lost (d : UInt64) (h0 : d ≠ 0) (hs : special .float64 d = false)
    (hv : (F64.value ⟨d⟩).natAbs < 2 ^ 53 * 2 ^ 1074) (u ig : Bool) (big : FT → UInt64 → Int) :
    ∃ ls d', marshal (oneField (.num .float64 none)) u noDec 0 0 [.num d] = .ok ls ∧ d' ≠ d ∧
      unmarshal big (oneField (.num .float64 none)) ig 0 (fresh (oneField (.num .float64 none)) 0) ls = .ok [.num d'] := by
  obtain ⟨ls, h1, h2⟩ := one_back (ty := .num .float64 none) (v := .num d) (.num trivial) rfl u big ig
  exact ⟨ls, _, h1, float64_changes big u d h0 hs hv, h2⟩

/-- The same for float32, of magnitude less than 2^24. -/
theorem C77_float32_lost (x : UInt32) (h0 : x ≠ 0) (hs : special .float32 x.toUInt64 = false)
    (hv : (F32.value ⟨x⟩).natAbs < 2 ^ 24 * 2 ^ 149) (u ig : Bool) (big : FT → UInt64 → Int) :
    ∃ ls d', marshal (oneField (.num .float32 none)) u noDec 0 0 [.num x.toUInt64] = .ok ls ∧ d' ≠ x.toUInt64 ∧
      unmarshal big (oneField (.num .float32 none)) ig 0 (fresh (oneField (.num .float32 none)) 0) ls = .ok [.num d'] := by
  obtain ⟨ls, h1, h2⟩ := one_back (ty := .num .float32 none) (v := .num x.toUInt64) (.num ⟨x, rfl⟩) rfl u big ig
  exact ⟨ls, _, h1, float32_changes big u x h0 hs hv, h2⟩

/-- C77 is violated by bytes: all but the empty ones come back as other bytes, namely the text of their base64 encoding. -/
theorem C77_bytes_lost (b : Bytes) (hb : b ≠ []) (u ig : Bool) (big : FT → UInt64 → Int) :
    ∃ ls, marshal (oneField .bytes) u noDec 0 0 [.bin b] = .ok ls ∧ base64 b ≠ b ∧
      unmarshal big (oneField .bytes) ig 0 (fresh (oneField .bytes) 0) ls = .ok [.bin (base64 b)] := by
  obtain ⟨ls, h1, h2⟩ := one_back (ty := .bytes) (v := .bin b) .bytes rfl u big ig
  refine ⟨ls, h1, fun h => ?_, h2⟩
  have := base64_length b hb
  rw [h] at this
  omega

/-- C77 is violated by every uint64 from 2^63 up: it comes back as 2^63 - 1. -/
theorem C77_large_lost (d : UInt64) (h : 2 ^ 63 ≤ d.toNat) (u ig : Bool) (big : FT → UInt64 → Int) :
    ∃ ls, marshal (oneField (.num .uint64 none)) u noDec 0 0 [.num d] = .ok ls ∧
      unmarshal big (oneField (.num .uint64 none)) ig 0 (fresh (oneField (.num .uint64 none)) 0) ls = .ok [.num (2 ^ 63 - 1)] := by
  obtain ⟨ls, h1, h2⟩ := one_back (ty := .num .uint64 none) (v := .num d) (.num trivial) rfl u big ig
  refine ⟨ls, h1, ?_⟩
  rw [h2]
  show Out.ok [Val.num (if 2 ^ 63 ≤ d.toNat then (2 ^ 63 - 1 : UInt64) else d)] = _
  rw [if_pos h]

/-- C77 is violated by enum numbers that have no name: they come back as 0, unless numbers are asked for. -/
theorem C77_unnamed_enum_lost (t : FT) (e : EnumT) (d : UInt64) (h : Holds t d) (hname : nameOf e d = []) (ig : Bool)
    (big : FT → UInt64 → Int) :
    ∃ ls, marshal (oneField (.num t (some e))) false noDec 0 0 [.num d] = .ok ls ∧
      unmarshal big (oneField (.num t (some e))) ig 0 (fresh (oneField (.num t (some e))) 0) ls = .ok [.num 0] := by
  obtain ⟨ls, h1, h2⟩ := one_back (ty := .num t (some e)) (v := .num d) (.num h) rfl false big ig
  refine ⟨ls, h1, ?_⟩
  rw [h2]
  simp [back, backNum, hname]

-- 1.5, and 0.1 as a float32
example : special .float64 0x3FF8000000000000 = false ∧ (0x3FF8000000000000 : UInt64) ≠ 0 := by decide

example : (F64.value ⟨0x3FF8000000000000⟩).natAbs < 2 ^ 53 * 2 ^ 1074 := by decide +kernel

example : special .float32 (0x3DCCCCCD : UInt32).toUInt64 = false ∧ (F32.value ⟨0x3DCCCCCD⟩).natAbs < 2 ^ 24 * 2 ^ 149 := by
  decide +kernel

/-- A struct in a struct in a list, with an enum. -/
def exKept : List Val := [.num 0xfffffffffffffffe, .num 1, .list [.obj exLeaf0], .map [] [], .obj exLeaf0, .null]
where exLeaf0 : List Val := [.num 5, .num 0, .list [], .map [] [], .null, .null]

theorem exLeaf0_fits : FitsAll exEnv (exEnv 0) exKept.exLeaf0 :=
  .cons (.num ⟨5, rfl⟩) (.cons (.num ⟨0, rfl⟩) (.cons (.list .nil)
    (.cons (.map (by simp) .nil .nil) (.cons .nil (.cons .noAny .nil)))))

theorem exKept_fits : FitsAll exEnv (exEnv 0) exKept :=
  .cons (.num ⟨-2, rfl⟩) (.cons (.num ⟨1, rfl⟩) (.cons (.list (.cons exLeaf0_fits .nil))
    (.cons (.map (by simp) .nil .nil) (.cons (.obj exLeaf0_fits) (.cons .noAny .nil)))))

theorem exKept_kept : KeptFields exEnv false (exEnv 0) exKept := by
  have ha : Utf8 (lit "A") := ascii_utf8 _ (by decide)
  refine ⟨trivial, .inr (.inl ⟨by decide, ha, by decide⟩), ⟨?_, trivial⟩, trivial, ?_, trivial, trivial⟩
  all_goals exact ⟨trivial, .inr (.inr ⟨by decide, rfl⟩), trivial, trivial, trivial, trivial, trivial⟩

example : ∃ ls, marshal exEnv false exDec 3 0 exKept = .ok ls ∧
    unmarshal (fun _ _ => 0) exEnv true 0 (fresh exEnv 0) ls = .ok exKept :=
  C77_unchanged_partial exEnv_named exEnv_distinct exDec_fits 3 _ true exKept_fits (by decide) exKept_kept

example : ∃ ls, marshal exEnv false exDec 3 0 exOne = .ok ls ∧
    unmarshal (fun _ _ => 0) exEnv true 0 (fresh exEnv 0) ls = .err :=
  C77_refused exEnv_named exEnv_distinct exDec_fits 3 _ true exOne_fits (by decide)

/-! ## C78 -/

/-- C78 is violated: whatever follows the closing brace is ignored. For every struct that can be read back and every
continuation, of which some make the text no JSON. -/
theorem C78_rest_ignored {env : Env} (hn : Named env) (hd : Distinct env) {u : Bool} {dec : AnyDec} (hdec : DecFits env dec)
    (n : Nat) (big : FT → UInt64 → Int) (ig : Bool) {s : Nat} {fs : List Val} (hf : FitsAll env (env s) fs)
    (hr : readables fs = true) :
    ∃ ls x, marshal env u dec n s fs = .ok ls ∧
      (∀ after, unmarshal big env ig s (fresh env s) (ls ++ after) = .ok x) ∧ ∃ after, ¬ WellFormed (ls ++ after) := by
  obtain ⟨ls, h1, h2⟩ := unmarshal_marshal hn hd (u := u) hdec n big ig hf
  refine ⟨ls, _, h1, fun after => by rw [h2 after, if_pos hr], ?_⟩
  by_cases hb : braces ls = 0
  · refine ⟨[.rbrace], fun hw => ?_⟩
    have := braces_wellFormed hw
    rw [braces_append, hb] at this
    simp [braces] at this
  · refine ⟨[], fun hw => ?_⟩
    rw [List.append_nil] at hw
    exact hb (braces_wellFormed hw)

example : ∃ ls x, marshal exEnv false exDec 3 0 exKept = .ok ls ∧
    (∀ after, unmarshal (fun _ _ => 0) exEnv false 0 (fresh exEnv 0) (ls ++ after) = .ok x) ∧ ∃ after, ¬ WellFormed (ls ++ after) :=
  C78_rest_ignored exEnv_named exEnv_distinct exDec_fits 3 _ false exKept_fits (by decide)

/-- C78 is violated: a text that breaks off within an object within a list is accepted: `{"x":[{"a":[n]}`. -/
theorem C78_truncated_accepted (n : Num) (t : FT) (big : FT → UInt64 → Int) (ig : Bool) (a : Bytes) :
    ∃ x, unmarshal big (oneField (.listNum t none)) ig 0 [.nums []]
      [.lbrace, .str (lit "x"), .colon, .lbrack, .lbrace, .str a, .colon, .lbrack, .num n, .rbrack, .rbrace] = .ok x ∧
    ¬ WellFormed [.lbrace, .str (lit "x"), .colon, .lbrack, .lbrace, .str a, .colon, .lbrack, .num n, .rbrack, .rbrace] := by
  have hw : ¬ WellFormed [.lbrace, .str (lit "x"), .colon, .lbrack, .lbrace, .str a, .colon, .lbrack, .num n, .rbrack, .rbrace] := by
    intro hw
    have := braces_wellFormed hw
    simp [braces] at this
  cases a with
  | nil => exact ⟨_, rfl, hw⟩
  | cons c a => exact ⟨_, rfl, hw⟩

/-- C78 is violated: a string for a number is taken for 0, whatever the string and the type of the number. -/
theorem C78_string_for_number (t : FT) (b : Bytes) (big : FT → UInt64 → Int) (ig : Bool) (old : UInt64) :
    unmarshal big (oneField (.num t none)) ig 0 [.num old] [.lbrace, .str (lit "x"), .colon, .str b, .rbrace] = .ok [.num (norm t 0)] := rfl

/-- C78 is violated: a number for a string is taken for the empty string. -/
theorem C78_number_for_string (n : Num) (big : FT → UInt64 → Int) (ig : Bool) (old : Bytes) :
    unmarshal big (oneField .str) ig 0 [.bin old] [.lbrace, .str (lit "x"), .colon, .num n, .rbrace] = .ok [.bin []] := rfl

/-- C78 is violated: a number that is too large for a uint8 is reduced, without an error. -/
theorem C78_number_wraps (n : Nat) (hn : n < 2 ^ 63) (big : FT → UInt64 → Int) (ig : Bool) (old : UInt64) :
    unmarshal big (oneField (.num .uint8 none)) ig 0 [.num old] [.lbrace, .str (lit "x"), .colon, .num (.int n), .rbrace] =
      .ok [.num (n % 256).toUInt64] := by
  show Out.ok [Val.num (intBits big (.int n)).toUInt8.toUInt64] = _
  simp only [intBits]
  rw [clamp_id (by omega) (by omega), Int64.ofInt_eq_ofNat]
  congr 3
  apply UInt64.toNat_inj.1
  simp
  omega

example : (300 % 256).toUInt64 = 44 := rfl

/-! ## C79 -/

/-- C79 for maps with string keys: the map is written as an object with one member to each entry, named after the keys, in order,
and no two names are the same. Missing: the other types of keys. -/
theorem C79_string_keys_partial {env : Env} {u : Bool} {anyJ : Bytes → Bytes → J} {v : MTy} {ks : List Bytes} {vs : List Val}
    (hf : Fits env (.map .string v) (.map (ks.map .str) vs)) (hk : ks ≠ []) (hu : ∀ k ∈ ks, Utf8 k) :
    ∃ m, tree env u anyJ (.map .string v) (.map (ks.map .str) vs) = .obj m ∧ m.names = ks ∧ ks.Nodup := by
  cases hf with
  | map hkf hri hvs =>
    refine ⟨treeEntries env u anyJ v (ks.map .str) vs, if_neg (by simpa using hk), ?_, ?_⟩
    · rw [treeEntries_names vs _ (fitsVals_length vs hvs), List.map_map]
      exact map_fix fun k h => repaired_utf8 (hu k h)
    · unfold Rising at hri
      rw [List.pairwise_map] at hri
      refine List.Pairwise.imp ?_ hri
      intro a b h hab
      subst hab
      rw [(keyCmp_laws .string).refl] at h
      exact absurd h (by decide)

example : ∃ m, tree exEnv false (fun _ _ => .null) (.map .string .str)
      (.map ([lit "a", lit "b"].map .str) [.bin (lit "x"), .bin []]) = .obj m ∧ m.names = [lit "a", lit "b"] ∧ [lit "a", lit "b"].Nodup :=
  C79_string_keys_partial (env := exEnv)
    (.map (by simp [KeyFits]) (by simp [Rising, keyCmp]; decide) (.cons .str (.cons .str .nil))) (by simp) (by
      intro k hk
      simp only [List.mem_cons, List.not_mem_nil, or_false] at hk
      rcases hk with rfl | rfl <;> exact ascii_utf8 _ (by decide))

/-- C79 is violated by all other keys: two maps with the same values under different keys are written alike. -/
theorem C79_number_keys_lost (k : FT) (v : MTy) (ks ks' : List Key) (vs : List Val)
    (hf : Fits (oneField (.map k v)) (.map k v) (.map ks vs)) (hf' : Fits (oneField (.map k v)) (.map k v) (.map ks' vs))
    (hk : ∀ key ∈ ks, ∃ d, key = .num d) (hk' : ∀ key ∈ ks', ∃ d, key = .num d) (u : Bool) (n : Nat) :
    marshal (oneField (.map k v)) u noDec n 0 [.map ks vs] = marshal (oneField (.map k v)) u noDec n 0 [.map ks' vs] := by
  obtain ⟨al, hal, _⟩ := anyLex_ok (u := u) (oneField_named (.map k v)) (noDec_fits _) n
  have h1 := marshal_out (u := u) hal (oneField_named (.map k v)) (s := 0) (fs := [.map ks vs]) (.cons hf .nil)
  have h2 := marshal_out (u := u) hal (oneField_named (.map k v)) (s := 0) (fs := [.map ks' vs]) (.cons hf' .nil)
  unfold marshal
  rw [h1, h2]
  cases hf with
  | map _ _ hv =>
    cases hf' with
    | map _ _ hv' =>
      have hl := fitsVals_length vs hv
      have hl' := fitsVals_length vs hv'
      have he : (ks = []) = (ks' = []) := by
        rw [← List.length_eq_zero_iff, ← List.length_eq_zero_iff, hl, hl']
      simp only [oneField, outFields, out]
      rw [outEntries_number_keys vs ks ks' true hk hk' hl hl']
      simp only [he]

-- {1: "x"} and {2: "x"}
example : marshal (oneField (.map .int8 .str)) false noDec 0 0 [.map [.num 1] [.bin (lit "x")]] =
    marshal (oneField (.map .int8 .str)) false noDec 0 0 [.map [.num 2] [.bin (lit "x")]] :=
  C79_number_keys_lost .int8 .str [.num 1] [.num 2] _
    (.map (by simp [KeyFits, Holds]; exact ⟨1, rfl⟩) (by simp [Rising]) (.cons .str .nil))
    (.map (by simp [KeyFits, Holds]; exact ⟨2, rfl⟩) (by simp [Rising]) (.cons .str .nil)) (by simp) (by simp) false 0

/-- C79 is violated: two entries with number keys have the same name. -/
theorem C79_same_names {env : Env} {u : Bool} {anyJ : Bytes → Bytes → J} {k : FT} {v : MTy} (d d' : UInt64) (x x' : Val) :
    ∃ m, tree env u anyJ (.map k v) (.map [.num d, .num d'] [x, x']) = .obj m ∧ ¬ m.names.Nodup :=
  ⟨_, rfl, by simp [treeEntries, Ms.names, keyName]⟩

end Claw.Json
