import Verif.Lemmas.TokenView
import Verif.Lemmas.TokenYield
import Verif.Lemmas.TokenMap

/-!
# C71 to C74: token streams
-/

namespace Claw.Tok

open Claw.Idl (FT Out)

set_option linter.unusedSimpArgs false

/-! ## C71 -/

/-- C71. Ingesting into a new struct what Walk wrote gives the struct: for every struct declaration, recursive ones included,
and every value of it at any depth. It does not matter whether unknown fields are ignored, nor what follows in the stream. -/
theorem C71_ingest_walk {env : Env} (hd : Distinct env) (s : Nat) (fs : List Val)
    (hf : FitsAll env (env s) fs) (ignore : Bool) (after : List Token) :
    ingest env ignore s (fresh env s) (walk env s (.obj fs) ++ after) = .ok fs := by
  have hp : ∀ s, ∀ d ∈ env s, Known (env s) d.name ∨
      (ignore = true ∧ ∀ v, Fits env d.ty v → Skips d.ty v) := fun s d h => .inl ⟨d, h, rfl⟩
  have ha := agree_self hd
  rw [read_struct hd hd ha hf (reads_fields hp (env s) fs hf fun d h => h) (shapeAll_fresh env s),
    mergeFields_view hd hd ha hf, readAs_self hd hf (view_fields hd _ _ hf)]

/-- Walk tells structs apart: two values with the same tokens are the same. -/
theorem C71_walk_injective {env : Env} (hd : Distinct env) (s : Nat) (fs gs : List Val)
    (hf : FitsAll env (env s) fs) (hg : FitsAll env (env s) gs)
    (h : walk env s (.obj fs) = walk env s (.obj gs)) : fs = gs := by
  have h1 := C71_ingest_walk hd s fs hf true []
  have h2 := C71_ingest_walk hd s gs hg true []
  rw [h, h2] at h1
  simpa using h1.symm

/-- A tree with a map of structs, a list of structs, an enum, an Any: struct 0 is recursive. -/
def exEnv : Env := fun s => match s with
  | 0 => [⟨lit "id", .num .int8 none⟩, ⟨lit "kind", .num .uint8 (some ⟨[(1, lit "A")], [(lit "A", 1)]⟩)⟩,
    ⟨lit "kids", .listStruct 0⟩, ⟨lit "by", .map .string (.struct 1)⟩, ⟨lit "next", .struct 0⟩,
    ⟨lit "x", .any⟩]
  | 1 => [⟨lit "name", .str⟩, ⟨lit "tags", .listStr⟩]
  | _ => []

/-- A leaf. -/
def exLeaf : List Val := [.num 0, .num 9, .list [], .map [] [], .null, .null]

/-- A value of struct 0: `id` is -2. -/
def exVal : List Val :=
  [.num 0xfffffffffffffffe, .num 1, .list [.obj exLeaf, .obj exLeaf],
   .map [.str (lit "a"), .str (lit "b")] [.obj [.bin (lit "x"), .bins [lit "t"]], .obj [.bin [], .bins []]],
   .obj exLeaf, .any (List.replicate 16 7) [1, 2]]

theorem exEnv_distinct : Distinct exEnv := by
  intro s
  match s with
  | 0 => decide
  | 1 => decide
  | _ + 2 => simp [exEnv]

theorem exLeaf_fits : FitsAll exEnv (exEnv 0) exLeaf :=
  .cons (.num ⟨0, rfl⟩) (.cons (.num ⟨9, rfl⟩) (.cons (.list .nil)
    (.cons (.map (by simp) .nil .nil) (.cons .nil (.cons .noAny .nil)))))

theorem exVal_fits : FitsAll exEnv (exEnv 0) exVal :=
  .cons (.num ⟨-2, rfl⟩) (.cons (.num ⟨1, rfl⟩) (.cons (.list (.cons exLeaf_fits (.cons exLeaf_fits .nil)))
    (.cons (.map (by simp [KeyFits]) (by simp [Rising, keyCmp]; decide)
      (.cons (.struct (.cons .str (.cons .strs .nil))) (.cons (.struct (.cons .str (.cons .strs .nil))) .nil)))
      (.cons (.obj exLeaf_fits) (.cons (.any ⟨rfl, by simp⟩) .nil)))))

example : ingest exEnv false 0 (fresh exEnv 0) (walk exEnv 0 (.obj exVal)) = .ok exVal := by
  simpa using C71_ingest_walk exEnv_distinct 0 exVal exVal_fits false []


/-! ## C72 -/

/-- C72, exactly when it holds. A reader whose declarations differ from the writer's, but not in the types of fields of the
same name, and which is told to ignore unknown fields or not: if every unknown field, at any depth, may be skipped, then
every struct it gets has its own fields with the values of the writer's fields of the same name, and new values for the
others; otherwise Ingest fails. Missing for the property: a list of Any (and a map of such lists) with something in it is
not skipped (`C72_unknown_any_list_refused`). -/
theorem C72_other_declarations_partial {old new : Env} (ho : Distinct old) (hn : Distinct new)
    (ha : Agree old new) (s : Nat) (fs : List Val) (hf : FitsAll new (new s) fs) (ignore : Bool)
    (after : List Token) :
    (ReadsAll old new ignore s (new s) fs →
      ingest old ignore s (fresh old s) (walk new s (.obj fs) ++ after) =
        .ok (readAs (old s) (viewFields old new (new s) fs))) ∧
    (¬ ReadsAll old new ignore s (new s) fs →
      ingest old ignore s (fresh old s) (walk new s (.obj fs) ++ after) = .err) := by
  constructor
  · intro h
    rw [read_struct ho hn ha hf h (shapeAll_fresh old s), mergeFields_view ho hn ha hf]
  · intro h
    exact reject_struct ho hn ha hf h (shapeAll_fresh old s) after

/-- C72 when the writer's structs have no field of type list of Any or map of such lists: unknown fields are ignored, at
every depth, whatever the values. -/
theorem C72_unknown_fields_ignored_partial {old new : Env} (ho : Distinct old) (hn : Distinct new)
    (ha : Agree old new)
    (hl : ∀ s, ∀ d ∈ new s, d.ty ≠ .listAny ∧ ∀ k, d.ty ≠ .map k .listAny)
    (s : Nat) (fs : List Val) (hf : FitsAll new (new s) fs) (after : List Token) :
    ingest old true s (fresh old s) (walk new s (.obj fs) ++ after) =
      .ok (readAs (old s) (viewFields old new (new s) fs)) := by
  refine (C72_other_declarations_partial ho hn ha s fs hf true after).1 (reads_fields ?_ _ _ hf fun d h => h)
  intro s d hd
  refine .inr ⟨rfl, fun v _ => ?_⟩
  have := hl s d hd
  cases ht : d.ty <;> simp only [Skips] <;> simp [ht] at this
  rename_i k mv
  cases mv <;> simp only [Skips] <;> simp at this

/-- Fields added by the writer are not lost silently when the reader asked for it: without the option a field that the
reader does not declare makes Ingest fail. -/
theorem C72_unknown_field_refused {old new : Env} (ho : Distinct old) (hn : Distinct new)
    (ha : Agree old new) (s : Nat) (fs : List Val) (hf : FitsAll new (new s) fs)
    (hu : ∃ d ∈ new s, ¬ Known (old s) d.name) (after : List Token) :
    ingest old false s (fresh old s) (walk new s (.obj fs) ++ after) = .err := by
  refine (C72_other_declarations_partial ho hn ha s fs hf false after).2 fun h => ?_
  obtain ⟨d, hd, hk⟩ := hu
  have : ∀ ds vs, ReadsAll old new false s ds vs → ∀ d ∈ ds, Known (old s) d.name := by
    intro ds
    induction ds with
    | nil => intro vs _ d hd; simp at hd
    | cons e ds ih =>
      intro vs h d hd
      simp only [List.mem_cons] at hd
      cases h with
      | known hk _ h =>
        rcases hd with rfl | hd
        · exact hk
        · exact ih _ h d hd
      | skipped _ hi => simp at hi
  exact hk (this _ _ h d hd)

/-- A reader that knows only some of the fields, and has one more. -/
def exOld : Env := fun s => match s with
  | 0 => [⟨lit "more", .num .uint64 none⟩, ⟨lit "kids", .listStruct 0⟩, ⟨lit "by", .map .string (.struct 1)⟩]
  | 1 => [⟨lit "name", .str⟩]
  | _ => []

example : ingest exOld true 0 (fresh exOld 0) (walk exEnv 0 (.obj exVal)) = .ok
    [.num 0, .list [.obj [.num 0, .list [], .map [] []], .obj [.num 0, .list [], .map [] []]],
     .map [.str (lit "a"), .str (lit "b")] [.obj [.bin (lit "x")], .obj [.bin []]]] := by
  have := C72_unknown_fields_ignored_partial (old := exOld) (new := exEnv)
    (by intro s; match s with | 0 => decide | 1 => decide | _ + 2 => simp [exOld]) exEnv_distinct
    (by intro s; match s with | 0 => decide | 1 => decide | _ + 2 => simp [exOld])
    (by intro s; match s with
      | 0 => intro d hd; simp [exEnv] at hd; rcases hd with rfl | rfl | rfl | rfl | rfl | rfl <;> simp
      | 1 => intro d hd; simp [exEnv] at hd; rcases hd with rfl | rfl <;> simp
      | _ + 2 => simp [exEnv])
    0 exVal exVal_fits []
  rw [List.append_nil] at this
  rw [this]
  simp [readAs, viewFields, view, viewItems, exEnv, exOld, exVal, exLeaf, Ty.default, lit]

/-- A reader that does not know the fields of types list of Any and map of lists of Any. -/
def exNew : Env := fun s => if s = 0 then [⟨lit "a", .str⟩, ⟨lit "l", .listAny⟩] else []

/-- C72 fails: a field of type list of Any that the reader does not know makes Ingest fail although unknown fields are to be
ignored, for every list with something in it. -/
theorem C72_unknown_any_list_refused (a : Bytes) (l : List (Bytes × Bytes)) (hl : ∀ p ∈ l, AnyFits p.1 p.2)
    (hne : l ≠ []) :
    ingest (fun s => if s = 0 then [⟨lit "a", .str⟩] else []) true 0 [.bin []]
      (walk exNew 0 (.obj [.bin a, .anys l])) = .err := by
  have h := (C72_other_declarations_partial (old := fun s => if s = 0 then [⟨lit "a", .str⟩] else []) (new := exNew)
    (by intro s; simp only; split <;> simp) (by intro s; simp only [exNew]; split <;> decide)
    (by intro s d hd d' hd' he
        by_cases hs : s = 0
        · simp [hs, exNew] at hd hd'
          subst hd
          rcases hd' with rfl | rfl
          · rfl
          · revert he; decide
        · simp [hs] at hd)
    0 [.bin a, .anys l] (.cons .str (.cons (.anys hl) .nil)) true []).2
  rw [List.append_nil] at h
  apply h
  intro hr
  have hr : ReadsAll _ exNew true 0 [⟨lit "a", .str⟩, ⟨lit "l", .listAny⟩] _ := hr
  cases hr with
  | skipped hk => exact hk ⟨_, by simp, rfl⟩
  | known _ _ hr =>
    cases hr with
    | known hk =>
      obtain ⟨d, hd, hn⟩ := hk
      simp at hd
      subst hd
      revert hn; decide
    | skipped _ _ hs =>
      simp [Skips] at hs
      exact hne hs

example : AnyFits (List.replicate 16 7) [1] := ⟨rfl, by simp⟩

/-! ## C73 -/

/-- C73, what happens exactly: Ingest into a struct that has contents. Each field is changed by itself: scalars, strings and
bytes, structs and Any that are there are replaced; lists are extended; map entries are added to those that are there; and a
field that has a nil struct, no Any, an empty list or an empty map in the stream keeps what it had. Missing for the
property: the last two kinds (`C73_lists_extended`, `C73_nil_keeps`). -/
theorem C73_merged_partial {env : Env} (hd : Distinct env) (s : Nat) (fs x : List Val)
    (hf : FitsAll env (env s) fs) (hx : FitsAll env (env s) x) (ignore : Bool) (after : List Token) :
    ∃ r, ingest env ignore s x (walk env s (.obj fs) ++ after) = .ok r ∧ r.length = (env s).length ∧
      ∀ (i : Nat) (d : Decl) (o v : Val), (env s)[i]? = some d → x[i]? = some o → fs[i]? = some v →
        r[i]? = some (merge d.ty o v) := by
  have hp : ∀ s, ∀ d ∈ env s, Known (env s) d.name ∨
      (ignore = true ∧ ∀ v, Fits env d.ty v → Skips d.ty v) := fun s d h => .inl ⟨d, h, rfl⟩
  have ha := agree_self hd
  have hsh := fitsAll_shape hx
  refine ⟨_, read_struct hd hd ha hf (reads_fields hp (env s) fs hf fun d h => h) hsh after, ?_⟩
  -- the struct as a function of the declarations
  have hxm : x = (env s).map fun d => ((fieldIdx (env s) d.name).bind fun i => x[i]?).getD .null := by
    apply List.ext_getElem?
    intro j
    rw [List.getElem?_map]
    cases hj : (env s)[j]? with
    | none =>
      have := List.getElem?_eq_none_iff.1 hj
      rw [Option.map_none, List.getElem?_eq_none_iff]
      rw [hsh.1]; exact this
    | some d =>
      obtain ⟨i, hi⟩ := fieldIdx_known (ds := env s) (n := d.name) ⟨d, List.mem_of_getElem? hj, rfl⟩
      obtain ⟨d', hd', hn⟩ := fieldIdx_some hi
      have hij : i = j := nodup_inj (hd s) hd' hj hn
      subst hij
      have hl := (List.getElem?_eq_some_iff.1 hj).1
      have : x[i]? = some (x[i]'(by rw [hsh.1]; exact hl)) := List.getElem?_eq_getElem _
      rw [Option.map_some, hi, Option.bind_some, this]
      rfl
  have hnm := viewFields_names env env _ _ hf
  have hm := mergeFields_map (hd s) (viewFields env env (env s) fs) (by rw [hnm]; exact hd s)
    fun d => ((fieldIdx (env s) d.name).bind fun i => x[i]?).getD .null
  rw [← hxm] at hm
  rw [hm]
  refine ⟨by simp, fun i d o v hdi hoi hvi => ?_⟩
  rw [List.getElem?_map, hdi]
  simp only [Option.map_some]
  have hfd : (viewFields env env (env s) fs).find? (fun p => decide (p.1 = d.name)) = some (d.name, v) := by
    have hvm : (d.name, v) ∈ viewFields env env (env s) fs := by
      rw [viewFields_zip]
      refine List.mem_map.2 ⟨(d, v), ?_, ?_⟩
      · rw [List.mem_iff_getElem?]
        exact ⟨i, by rw [List.getElem?_zip_eq_some]; exact ⟨hdi, hvi⟩⟩
      · simp [view_self hd v (fitsAll_get hf hdi hvi)]
    have hsome : ((viewFields env env (env s) fs).find? (fun p => decide (p.1 = d.name))).isSome := by
      rw [List.find?_isSome]
      exact ⟨_, hvm, by simp⟩
    obtain ⟨q, hq⟩ := Option.isSome_iff_exists.1 hsome
    rw [hq]
    have hq1 := List.find?_some hq
    have hq2 := List.mem_of_find?_eq_some hq
    simp only [decide_eq_true_eq] at hq1
    have hnd : ((viewFields env env (env s) fs).map (·.1)).Nodup := by rw [hnm]; exact hd s
    rw [nodup_eq hnd hq2 hvm hq1]
  rw [hfd]
  simp only
  have : ((fieldIdx (env s) d.name).bind fun i => x[i]?).getD .null = o := by
    have h1 := congrArg (fun l => l[i]?) hxm
    simp only [List.getElem?_map, hdi, hoi, Option.map_some, Option.some.injEq] at h1
    exact h1.symm
  rw [this]

/-- C73 holds for a field that is a scalar, string or bytes, and for a struct or Any that is there: the new value replaces
the old one. -/
theorem C73_replaced_partial (ty : Ty) (old v : Val)
    (h : match v with | .num _ | .bin _ | .obj _ | .any _ _ => True | _ => False) :
    merge ty old v = v := by
  cases v <;> first | rfl | exact absurd h (by simp)

/-- C73 for a map field: the entries in the stream are set, those of other keys stay, and the keys are still in order, each
once. -/
theorem C73_map_entries_partial (k : FT) (v : MTy) {ks ks' : List Key} {vs vs' : List Val} (hl : ks.length = vs.length)
    (hl' : ks'.length = vs'.length) (hr : Rising k ks) (hr' : Rising k ks') :
    ∃ rks rvs, merge (.map k v) (.map ks vs) (.map ks' vs') = .map rks rvs ∧ rks.length = rvs.length ∧ Rising k rks ∧
      ∀ key, entry k key rks rvs = (entry k key ks' vs').or (entry k key ks vs) :=
  mergeMap_entries hl hl' hr hr'

example : Rising .string [.str (lit "a"), .str (lit "b")] := by simp [Rising]; decide

/-- C73 fails: lists are extended. For every list that a field has and every other list that is ingested. -/
theorem C73_lists_extended (old new : List UInt64) (h1 : ∀ d ∈ old, Holds .uint32 d) (h2 : ∀ d ∈ new, Holds .uint32 d) :
    let env : Env := fun s => if s = 0 then [⟨lit "l", .listNum .uint32 none⟩] else []
    ingest env false 0 [.nums old] (walk env 0 (.obj [.nums new])) = .ok [.nums (old ++ new)] := by
  intro env
  have hd : Distinct env := by intro s; simp only [env]; split <;> simp
  obtain ⟨r, hr, hl, hi⟩ := C73_merged_partial hd 0 [.nums new] [.nums old] (.cons (.nums h2) .nil) (.cons (.nums h1) .nil) false []
  rw [List.append_nil] at hr
  rw [hr]
  have := hi 0 ⟨lit "l", .listNum .uint32 none⟩ (.nums old) (.nums new) (by simp [env]) rfl rfl
  match r, hl with
  | [a], _ => simp [merge, appendNums] at this; rw [this]

example : Holds .uint32 5 := ⟨5, rfl⟩

/-- C73 fails: a struct field that is nil in the stream keeps the struct it had. -/
theorem C73_nil_keeps (b : Bytes) :
    let env : Env := fun s => if s = 0 then [⟨lit "n", .struct 1⟩] else if s = 1 then [⟨lit "a", .str⟩] else []
    ingest env false 0 [.obj [.bin b]] (walk env 0 (.obj [.null])) = .ok [.obj [.bin b]] := by
  intro env
  have hd : Distinct env := by intro s; simp only [env]; split <;> (try split) <;> simp
  obtain ⟨r, hr, hl, hi⟩ := C73_merged_partial hd 0 [.null] [.obj [.bin b]] (.cons .nil .nil)
    (.cons (.obj (.cons .str .nil)) .nil) false []
  rw [List.append_nil] at hr
  rw [hr]
  have := hi 0 ⟨lit "n", .struct 1⟩ (.obj [.bin b]) .null (by simp [env]) rfl rfl
  match r, hl with
  | [a], _ => simp [merge] at this; rw [this]

/-! ## C74 -/

/-- C74, for structs with no structs in them: Walk calls the callback with the tokens of the struct, in order, until it
answers false, and not again. For every callback, whatever it bases its answers on. Missing: nested structs
(`C74_called_again`). -/
theorem C74_stops_partial {env : Env} (s : Nat) (fs : List Val) (hf : FitsAll env (env s) fs)
    (hp : ∀ v ∈ fs, Plain v) (more : List Token → Bool) :
    Obeys more (calls env s (.obj fs) more) (walk env s (.obj fs)) := by
  have hs : script env s (.obj fs) = (walk env s (.obj fs)).map .tok := by
    simp [script, walk, scriptFields_plain hf hp]
  unfold calls
  rw [hs, runItems_toks]
  obtain ⟨h1, h2, h3⟩ := upTo_obeys more (walk env s (.obj fs)) []
  exact ⟨by simpa using h1, fun a ha => h2 a (List.nil_prefix) ha, by
    rcases h3 with h | ⟨h, h'⟩
    · exact .inl (by simpa using h)
    · exact .inr ⟨fun he => h he.symm, h'⟩⟩

/-- For every struct, up to the first answer of false the callback sees the tokens in order; and all of them, once each, if
it never answers false. -/
theorem C74_in_order_partial (env : Env) (s : Nat) (v : Val) (more : List Token → Bool) :
    (∃ c, c <+: calls env s v more ∧ Obeys more c (walk env s v)) ∧
    ((∀ a, more a = true) → calls env s v more = walk env s v) := by
  have h := runItems_upTo more (script env s v) []
  rw [flatten_script] at h
  obtain ⟨h1, h2, h3⟩ := upTo_obeys more (walk env s v) []
  constructor
  · refine ⟨_, h.2, by simpa using h1, fun a ha => h2 a (List.nil_prefix) ha, ?_⟩
    rcases h3 with h | ⟨h, h'⟩
    · exact .inl (by simpa using h)
    · exact .inr ⟨fun he => h he.symm, h'⟩
  · intro hm
    have ht : ∀ ts h, upTo more h ts = (h ++ ts, true) := by
      intro ts
      induction ts with
      | nil => intro h; simp [upTo]
      | cons t ts ih => intro h; simp [upTo, hm, ih]
    unfold calls
    rw [h.1 (by rw [ht]), ht]
    simp

/-- A struct with a nested struct and a field after it. -/
def exOuter : Env := fun s => if s = 0 then [⟨lit "n", .struct 1⟩, ⟨lit "b", .bytes⟩] else
  if s = 1 then [⟨lit "a", .str⟩] else []

/-- C74 fails: when the callback answers false inside a nested struct, Walk goes on with the fields after it. Here it
answers false at the third token, the start of the nested struct; it is called for two more. -/
theorem C74_called_again (a b : Bytes) :
    calls exOuter 0 (.obj [.obj [.bin a], .bin b]) (fun c => c.length < 3) =
      [{ kind := .structStart }, { kind := .field, name := lit "n", type := .struct }, { kind := .structStart },
       { kind := .field, name := lit "b", type := .bytes, bytes := b }] ∧
    ¬ Obeys (fun c => c.length < 3)
      (calls exOuter 0 (.obj [.obj [.bin a], .bin b]) (fun c => c.length < 3))
      (walk exOuter 0 (.obj [.obj [.bin a], .bin b])) := by
  have h : calls exOuter 0 (.obj [.obj [.bin a], .bin b]) (fun c => c.length < 3) =
      [{ kind := .structStart }, { kind := .field, name := lit "n", type := .struct }, { kind := .structStart },
       { kind := .field, name := lit "b", type := .bytes, bytes := b }] := by
    simp [calls, script, scriptFields, scriptField, exOuter, runItems, runItem, walkField]
  refine ⟨h, fun ho => ?_⟩
  rw [h] at ho
  have := ho.2.1 _ (by simp) (List.prefix_append [_, _, _] [_]) (by simp)
  simp at this

example : FitsAll exEnv (exEnv 0) exLeaf ∧ (∀ v ∈ exLeaf, Plain v) :=
  ⟨exLeaf_fits, by simp [exLeaf, Plain]⟩

end Claw.Tok
