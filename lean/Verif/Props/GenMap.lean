import Verif.Spec.GenMap
import Verif.Lemmas.IdlTypes

/-!
# C135: the Go code for map fields
-/

namespace Claw.GenMap

open Claw.Idl

set_option linter.unusedSimpArgs false

theorem key_basic {k : FT} (h : k.IsMapKey) : (∃ n ∈ basics, goType k = .basic n) ∧ knownKey k = true := by
  cases k <;> first | exact absurd rfl h.1 | exact absurd rfl h.2.1 | exact absurd rfl h.2.2 | exact ⟨⟨_, by decide +kernel, rfl⟩, rfl⟩

theorem key_type {k : FT} (e : Env) (h : k.IsMapKey) : e.IsType (goType k) := by
  obtain ⟨⟨n, h1, h2⟩, _⟩ := key_basic h
  rw [h2]; exact h1

/-- The leaves that are no names. -/
theorem compiles_scalar {e : Env} {k v : FT} (hk : k.IsMapKey) (hv : v.IsScalar) : e.Compiles (.flat k v []) ↔ v ≠ .bytes := by
  obtain ⟨h1, h2⟩ := key_basic hk
  constructor
  · rintro h rfl
    have := h (.uses (lit "v") [lit "k"]) (by simp [needs, walkNeeds, identOf, valOf, knownValue, keyOf, h2])
    revert this
    show lit "v" ∈ [lit "k"] → False
    decide
  · intro hb
    unfold Env.Compiles
    cases v <;> first | exact absurd rfl hv | exact absurd rfl hb |
      (simp only [needs, accessNeeds, rawNeeds, mappingNeeds, walkNeeds, ingestNeeds, keyOf, identOf, valOf, knownValue, h2, valueGoType,
        mapsValue, rawValueType, rawLeaf, goType, ne_eq, not_true_eq_false, if_false, if_true, or_true, true_or, reduceCtorEq,
        List.append_nil, List.nil_append, List.cons_append, List.forall_mem_cons, List.not_mem_nil, false_implies, implies_true, and_true]
       and_intros
       all_goals (try simp only [Env.Meets, Env.IsType])
       all_goals first | exact h1 | exact Or.inr (Or.inl ⟨_, by decide +kernel, rfl⟩) | exact Or.inl rfl | (exact ⟨h1, by decide +kernel⟩) |
         decide +kernel)

theorem compiles_anys {e : Env} {k : FT} (hk : k.IsMapKey) : e.Compiles (.flat k .listAny []) := by
  obtain ⟨h1, h2⟩ := key_basic hk
  unfold Env.Compiles
  simp only [needs, accessNeeds, rawNeeds, mappingNeeds, walkNeeds, ingestNeeds, keyOf, identOf, valOf, knownValue, h2, valueGoType,
    mapsValue, rawValueType, rawLeaf, goType, ne_eq, not_true_eq_false, if_false, if_true, or_true, true_or, reduceCtorEq,
    List.append_nil, List.nil_append, List.cons_append, List.forall_mem_cons, List.not_mem_nil, false_implies, implies_true, and_true]
  and_intros
  all_goals (try simp only [Env.Meets, Env.IsType])
  all_goals first | exact h1 | exact Or.inl rfl | exact ⟨h1, trivial⟩ | (show _ ∈ _; decide) | decide +kernel

/-- A name that a prefix is put on is no name of an import, if no import begins so. -/
theorem not_imported {e : Env} (hs : e.Sane) (n : Str) : ¬ e.Imported (lit "XXXMapping" ++ n) := by
  rintro ⟨p, q, he, hp⟩
  refine hs.imports p hp ?_
  rcases List.append_eq_append_iff.1 he with ⟨a, h1, h2⟩ | ⟨c, h1, h2⟩
  · exact ⟨a, h1.symm⟩
  · cases c with
    | nil => exact ⟨[], by simpa using h1⟩
    | cons x c =>
      simp only [List.cons_append, List.cons.injEq] at h2
      obtain ⟨rfl, _⟩ := h2
      have : (46 : UInt8) ∈ lit "XXXMapping" := by rw [h1]; simp
      exact absurd this (by decide)

theorem compiles_named {e : Env} (hs : e.Sane) {k : FT} (hk : k.IsMapKey) (n : Str) : e.Compiles (.flat k .struct n) ↔ n ∈ e.structs := by
  obtain ⟨h1, h2⟩ := key_basic hk
  constructor
  · intro h
    by_cases hn : n = []
    · subst hn
      have := h (.uses (lit "v") [lit "k"]) (by simp [needs, walkNeeds, identOf, valOf, knownValue, keyOf, h2])
      revert this
      show lit "v" ∈ [lit "k"] → _
      intro h; exact absurd h (by decide)
    · have := h (.mapping (lit "XXXMapping" ++ n)) (by simp [needs, mappingNeeds, hn])
      rcases this with ⟨s, h3, h4⟩ | h3
      · rw [List.append_cancel_left h4]; exact h3
      · exact absurd h3 (not_imported hs n)
  · intro hm
    unfold Env.Compiles
    have hn : n ≠ [] := fun h => hs.structs (h ▸ hm)
    simp only [needs, accessNeeds, rawNeeds, mappingNeeds, walkNeeds, ingestNeeds, keyOf, identOf, valOf, knownValue, h2, valueGoType,
      mapsValue, rawValueType, rawLeaf, goType, ne_eq, hn, not_false_eq_true, if_false, if_true, or_true, true_or, reduceCtorEq,
      List.append_nil, List.nil_append, List.cons_append, List.forall_mem_cons, List.not_mem_nil, false_implies, implies_true, and_true]
    and_intros
    all_goals (try simp only [Env.Meets, Env.IsType])
    all_goals first | exact h1 | exact Or.inl ⟨n, hm, rfl⟩ | exact Or.inl hm | exact ⟨n, rfl, Or.inl hm⟩ | exact Or.inl ⟨n, hm, rfl, rfl⟩ |
      exact Or.inr (Or.inl ⟨n, hm, rfl⟩) | exact Or.inl trivial |
      exact ⟨h1, Or.inr (Or.inl ⟨n, hm, rfl⟩)⟩ | exact Or.inl rfl | decide +kernel

theorem nested_not_compiles {e : Env} (k : FT) (i : MapInfo) : ¬ e.Compiles (.nested k i) := by
  intro h
  have := h (.value (nestedGoType i)) (by simp [needs, accessNeeds, valueGoType])
  cases i <;> (simp only [nestedGoType] at this; rcases this with h | ⟨_, _, h⟩ | ⟨_, _, h⟩ <;> cases h)

/-- The text of a map field is read as that of one map type, whatever it is. -/
theorem field_is_map {c c' : Ctx} {self ty : Str} {f g : Field} {m : MapInfo} (hf : f.map = none)
    (h : fieldType c self f ty = .ok (g, c')) (hm : g.map = some m) : ∃ t : MapTy, t.Readable c ∧ t.text = ty ∧ t.info = m := by
  unfold fieldType at h
  split at h
  · simp only [Out.ok.injEq, Prod.mk.injEq] at h
    obtain ⟨rfl, _⟩ := h
    simp [hf] at hm
  · split at h
    · simp only [Out.bind_eq_ok, Out.pure_eq, Out.ok.injEq, Prod.mk.injEq] at h
      obtain ⟨⟨m', c1⟩, h, rfl, rfl⟩ := h
      obtain ⟨t, h1, h2, h3, _⟩ := parseMapType_text h
      simp only [Option.some.injEq] at hm
      exact ⟨t, h1, h2, h3.trans hm⟩
    · have key : ∀ {l : Bool} {n : Str}, refType c self f l n = .ok (g, c') → False := by
        intro l n h
        unfold refType at h
        split at h
        · simp only [Out.bind_eq_ok, Out.pure_eq, Out.ok.injEq, Prod.mk.injEq] at h
          obtain ⟨_, _, rfl, _⟩ := h
          simp [hf] at hm
        · split at h
          · split at h
            · simp only [Out.ok.injEq, Prod.mk.injEq] at h
              obtain ⟨rfl, _⟩ := h
              simp [hf] at hm
            · simp at h
          · simp only [Out.ok.injEq, Prod.mk.injEq] at h
            obtain ⟨rfl, _⟩ := h
            simp [hf] at hm
          · simp only [Out.bind_eq_ok, Out.pure_eq, Out.ok.injEq, Prod.mk.injEq] at h
            obtain ⟨_, _, rfl, _⟩ := h
            simp [hf] at hm
      split at h
      · exact (key h).elim
      · exact (key h).elim

/-- C135: exactly which map types give Go code that compiles. Whatever text the compiler reads as the type of a map field, it is that
of a map type, and the code for the field compiles exactly if the values are scalars other than bytes, strings, Any, lists of Any or
structs of the same schema. -/
theorem C135_iff_partial {e : Env} (hs : e.Sane) {c c' : Ctx} {self ty : Str} {f g : Field} {m : MapInfo} (hf : f.map = none)
    (h : fieldType c self f ty = .ok (g, c')) (hm : g.map = some m) :
    ∃ t : MapTy, t.text = ty ∧ t.info = m ∧ (e.Compiles m ↔ Works e.structs t) := by
  obtain ⟨t, h1, h2, h3⟩ := field_is_map hf h hm
  refine ⟨t, h2, h3, ?_⟩
  subst h3
  cases t with
  | scalar k v => exact compiles_scalar h1.1 h1.2
  | anys k => exact ⟨fun _ => trivial, fun _ => compiles_anys h1⟩
  | named k n => exact compiles_named hs h1.1 n
  | map k i => exact ⟨fun h => (nested_not_compiles k i.info h).elim, fun h => h.elim⟩

/-- `map[string]Setting` in a schema with the struct `Setting` (testing/maps/claw/maps.claw 14). -/
example : ∃ g c', fieldType ⟨[], [], []⟩ (lit "ComplexMaps") ⟨[], lit "Settings", 0, .unknown, false, false, [], false, none⟩
      (lit "map[string]Setting") = .ok (g, c') ∧ g.map = some (.flat .string .struct (lit "Setting")) ∧
    Env.Sane ⟨[lit "ComplexMaps", lit "Setting"], [], [lit "vehicles"]⟩ ∧
    Env.Compiles ⟨[lit "ComplexMaps", lit "Setting"], [], [lit "vehicles"]⟩ (.flat .string .struct (lit "Setting")) := by
  have hs : Env.Sane ⟨[lit "ComplexMaps", lit "Setting"], [], [lit "vehicles"]⟩ := ⟨by decide, by decide⟩
  refine ⟨⟨[], lit "Settings", 0, .map, false, false, [], false, some (.flat .string .struct (lit "Setting"))⟩, ⟨[], [], []⟩,
    by decide +kernel, rfl, hs, ?_⟩
  rw [compiles_named hs (by decide)]
  decide

/-- C135 fails for bytes: `map[K]bytes` is accepted for every key, and the code never compiles, whatever the rest of the schema. -/
theorem C135_bytes (e : Env) (c : Ctx) (self : Str) (f : Field) (k : FT) (hk : k.IsMapKey) :
    (∃ g, fieldType c self f (lit "map[" ++ scalarText k ++ lit "]bytes") = .ok (g, c) ∧ g.map = some (.flat k .bytes [])) ∧
    ¬ e.Compiles (.flat k .bytes []) := by
  refine ⟨?_, fun h => (compiles_scalar hk (by decide)).1 h rfl⟩
  have hr : (MapTy.scalar k .bytes).Readable c := ⟨hk, by decide⟩
  have h2 := text_parseMapType _ hr (Nat.le_refl _)
  have h0 := plainType_map (.scalar k .bytes)
  have ht : (MapTy.scalar k .bytes).text = lit "map[" ++ scalarText k ++ lit "]bytes" := by
    show lit "map[" ++ scalarText k ++ lit "]" ++ lit "bytes" = _
    rw [List.append_assoc]; rfl
  have h1 : Str.hasPrefix (lit "map[") (MapTy.scalar k .bytes).text = true := by
    rw [hasPrefix_iff]; simp only [MapTy.text, List.append_assoc]; exact List.prefix_append _ _
  refine ⟨{ f with type := .map, map := some (.flat k .bytes []) }, ?_, rfl⟩
  rw [← ht]
  unfold fieldType
  rw [h0]
  simp only [h1, if_true, h2, Out.ok_bind, Out.pure_eq, MapTy.info, MapTy.after]

/-- C135 fails for maps of maps of any depth: they are accepted, and the code never compiles. -/
theorem C135_nested (e : Env) (c : Ctx) (self : Str) (f : Field) (k : FT) (t : MapTy) (ht : (MapTy.map k t).OK) :
    (∃ g c', fieldType c self f (lit "map[" ++ scalarText k ++ lit "]" ++ t.text) = .ok (g, c') ∧ g.map = some (.nested k t.info)) ∧
    ¬ e.Compiles (.nested k t.info) := by
  refine ⟨?_, nested_not_compiles _ _⟩
  have h2 := text_parseMapType _ (MapTy.OK.readable c ht) (Nat.le_refl _)
  have h0 := plainType_map (.map k t)
  have h1 : Str.hasPrefix (lit "map[") (MapTy.map k t).text = true := by
    rw [hasPrefix_iff]; simp only [MapTy.text, List.append_assoc]; exact List.prefix_append _ _
  refine ⟨{ f with type := .map, map := some (.nested k t.info) }, (MapTy.map k t).after c, ?_, rfl⟩
  show fieldType c self f (MapTy.map k t).text = _
  unfold fieldType
  rw [h0]
  simp only [h1, if_true, h2, Out.ok_bind, Out.pure_eq, MapTy.info]

/-- `map[string]map[int32]bool`, the example in the comment of parseMapType. -/
example : (MapTy.map .string (.scalar .int32 .bool)).OK := ⟨by decide, by decide, by decide⟩

/-- C135 fails for the structs of other packages and for enums: a map to `pkg.Name`, where `pkg` is imported, or to an enum is accepted,
and the code does not compile. -/
theorem C135_imported {e : Env} (hs : e.Sane) {k : FT} (hk : k.IsMapKey) {n : Str} (hn : n ∉ e.structs) : ¬ e.Compiles (.flat k .struct n) :=
  fun h => hn ((compiles_named hs hk n).1 h)

/-- `map[string]cars.Car` is accepted, with `cars` imported and the enum `Color` in the schema; neither it nor `map[string]Color`
compiles. -/
example :
    (∃ g c', fieldType ⟨[], [lit "cars"], []⟩ (lit "A") ⟨[], lit "F", 0, .unknown, false, false, [], false, none⟩
      (lit "map[string]cars.Car") = .ok (g, c') ∧ g.map = some (.flat .string .struct (lit "cars.Car"))) ∧
    ¬ Env.Compiles ⟨[lit "A"], [lit "Color"], [lit "cars"]⟩ (.flat .string .struct (lit "cars.Car")) ∧
    ¬ Env.Compiles ⟨[lit "A"], [lit "Color"], [lit "cars"]⟩ (.flat .string .struct (lit "Color")) := by
  have hs : Env.Sane ⟨[lit "A"], [lit "Color"], [lit "cars"]⟩ := ⟨by decide, by decide⟩
  exact ⟨⟨⟨[], lit "F", 0, .map, false, false, [], false, some (.flat .string .struct (lit "cars.Car"))⟩,
    ⟨[], [lit "cars"], [lit "cars.Car"]⟩, by decide +kernel, rfl⟩, C135_imported hs (by decide) (by decide), C135_imported hs (by decide) (by decide)⟩

/-- C135: where the code compiles, the types are those one expects: the key type, and for a scalar value its type, in the accessors and
in the Raw struct. -/
theorem C135_types {k v : FT} (hk : k.IsMapKey) {b : Str} (hv : expected v = some b) :
    (∃ a, expected k = some a ∧ goType k = .basic a) ∧ mapsValue (.flat k v []) = .basic b ∧ valueGoType (.flat k v []) = .basic b ∧
      rawValueType (.flat k v []) = .basic b := by
  refine ⟨?_, ?_⟩
  · cases k <;> first | exact absurd rfl hk.1 | exact absurd rfl hk.2.1 | exact absurd rfl hk.2.2 | exact ⟨_, rfl, rfl⟩
  · cases v <;> simp only [expected, reduceCtorEq, Option.some.injEq] at hv <;> subst hv <;> exact ⟨rfl, rfl, rfl⟩

/-- C135: the accessors and the Raw struct have `[]byte` for bytes, and `*X` and `*XRaw` for a struct `X`; the keys of a map of maps
are those of the outer map. -/
theorem C135_more_types {k : FT} (hk : k.IsMapKey) {n : Str} (hn : n ≠ []) (i : MapInfo) :
    (valueGoType (.flat k .bytes []) = .bytes ∧ rawValueType (.flat k .bytes []) = .bytes ∧ mapsValue (.flat k .bytes []) = .bytes) ∧
    (valueGoType (.flat k .struct n) = .ptr (.named n) ∧ rawValueType (.flat k .struct n) = .ptr (.named (n ++ lit "Raw"))) ∧
    ∃ a, expected k = some a ∧ ∀ v n, ∀ m ∈ [.flat k v n, .nested k i], Need.key (.basic a) ∈ needs m ∧ ∀ t, Need.key t ∈ accessNeeds m → t = .basic a := by
  refine ⟨⟨rfl, rfl, rfl⟩, ⟨by simp [valueGoType, hn], by simp [rawValueType, hn]⟩, ?_⟩
  have : ∃ a, expected k = some a ∧ goType k = .basic a := by
    cases k <;> first | exact absurd rfl hk.1 | exact absurd rfl hk.2.1 | exact absurd rfl hk.2.2 | exact ⟨_, rfl, rfl⟩
  obtain ⟨a, h1, h2⟩ := this
  refine ⟨a, h1, fun v n m hm => ?_⟩
  simp only [List.mem_cons, List.not_mem_nil, or_false] at hm
  rcases hm with rfl | rfl
  · constructor
    · simp [needs, accessNeeds, keyOf, h2]
    · intro t ht
      simp only [accessNeeds, keyOf, h2] at ht
      repeat' split at ht
      all_goals simpa using ht
  · constructor
    · simp [needs, accessNeeds, keyOf, h2]
    · intro t ht
      simpa [accessNeeds, keyOf, h2] using ht

/-- C135: of the code for `map[K]bytes` the accessors and the Raw struct compile; `Walk` and the decoder do not. Of the code for a map of
maps none of the accessors, `Walk` and the decoder compiles. -/
theorem C135_where (e : Env) {k : FT} (hk : k.IsMapKey) (i : MapInfo) :
    (∀ n ∈ accessNeeds (.flat k .bytes []) ++ rawNeeds (.flat k .bytes []) ++ mappingNeeds (.flat k .bytes []), e.Meets n) ∧
    (∀ m ∈ [.flat k .bytes [], .nested k i], (∃ n ∈ walkNeeds m, ¬ e.Meets n) ∧ ∃ n ∈ ingestNeeds m, ¬ e.Meets n) ∧
    ∃ n ∈ accessNeeds (.nested k i), ¬ e.Meets n := by
  obtain ⟨h1, h2⟩ := key_basic hk
  refine ⟨?_, ?_, ?_⟩
  · simp only [accessNeeds, rawNeeds, mappingNeeds, keyOf, valueGoType, mapsValue, rawValueType, rawLeaf, goType, ne_eq, not_true_eq_false,
      if_false, reduceCtorEq, List.append_nil, List.cons_append, List.nil_append, List.forall_mem_cons, List.not_mem_nil, false_implies,
      implies_true, and_true]
    exact ⟨h1, Or.inl rfl, trivial, Or.inl rfl, ⟨h1, trivial⟩, Or.inl rfl, Or.inl rfl⟩
  · intro m hm
    have hw : Need.uses (lit "v") [lit "k"] ∈ walkNeeds m ∧ Need.uses (lit "key") [] ∈ ingestNeeds m := by
      simp only [List.mem_cons, List.not_mem_nil, or_false] at hm
      rcases hm with rfl | rfl <;> simp [walkNeeds, ingestNeeds, identOf, valOf, knownValue, keyOf, h2]
    refine ⟨⟨_, hw.1, ?_⟩, ⟨_, hw.2, ?_⟩⟩
    · show ¬ lit "v" ∈ [lit "k"]
      decide
    · show ¬ lit "key" ∈ ([] : List Str)
      simp
  · refine ⟨.value (nestedGoType i), by simp [accessNeeds, valueGoType], ?_⟩
    intro h
    cases i <;> (simp only [nestedGoType] at h; rcases h with h | ⟨_, _, h⟩ | ⟨_, _, h⟩ <;> cases h)

/-- `map[int32]int64`. -/
example : expected .int64 = some (lit "int64") ∧ FT.int32.IsMapKey := ⟨rfl, by decide⟩

end Claw.GenMap
