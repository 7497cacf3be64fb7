import Verif.Lemmas.GenGo
import Verif.Props.IdlTypes

/-!
# C123: the Go package that is generated for a schema is a valid one, as far as its names go
-/

namespace Claw.GenGo

open Claw.Idl

theorem settle_facts {u : Uni} {imports : List Str} {ls : List Line} {file : File} {ex : Str → Out (List (Str × Ident))} {isSet : Bool}
    {i : Input} (h : parseFile u imports ls = .ok file) (hs : settle ex isSet file = .ok i) :
    i.structs.map (·.1) = file.structs.map (·.1) ∧ i.enums.map (·.1) = file.enums.map (·.name) ∧
      ∀ s ∈ i.structs, ∀ f ∈ s.2, Settled i f ∧ f.type ≠ .unknown := by
  simp only [settle, Out.bind_eq_ok, Out.pure_eq, Out.ok.injEq] at hs
  obtain ⟨enums, h1, structs, h2, rfl⟩ := hs
  have e1 : structs.map (·.1) = file.structs.map (·.1) := by
    refine mapOut_map ?_ h2
    intro a b hab
    simp only [Out.bind_eq_ok, Out.pure_eq, Out.ok.injEq] at hab
    obtain ⟨_, _, rfl⟩ := hab
    rfl
  have e2 : enums.map (·.1) = file.enums.map (·.name) := by
    refine mapOut_map ?_ h1
    intro a b hab
    simp only [Out.bind_eq_ok, Out.pure_eq, Out.ok.injEq] at hab
    obtain ⟨_, _, rfl⟩ := hab
    rfl
  refine ⟨e1, e2, ?_⟩
  intro s hms f hf
  obtain ⟨t, htm, ht⟩ := (mapOut_ok h2).1 s hms
  simp only [Out.bind_eq_ok, Out.pure_eq, Out.ok.injEq] at ht
  obtain ⟨fs, hfs, rfl⟩ := ht
  obtain ⟨f0, hf0, hr⟩ := (mapOut_ok hfs).1 f hf
  obtain ⟨l, _, _, _, _, _, _, _, _, _, _, hsh⟩ := (parseFile_inv h).fields t htm f0 hf0
  obtain ⟨k1, k2, _⟩ := resolve_settled hsh hr
  refine ⟨?_, k2⟩
  obtain ⟨c1, c2⟩ := C69_identifiers h f.identName
  rcases k1 with k | ⟨a1, a2, a3, a4⟩ | ⟨a1, a2, a3⟩
  · exact Or.inl k
  · refine Or.inr (Or.inl ⟨a1, a2, a3, a4.imp id ?_⟩)
    rintro ⟨z, hz⟩
    obtain ⟨e, he, h3, _⟩ := (c2 z).1 hz
    show _ ∈ enums.map (·.1)
    rw [e2]
    exact List.mem_map.2 ⟨e, he, h3⟩
  · refine Or.inr (Or.inr ⟨a1, a2, a3.imp id ?_⟩)
    intro hz
    show _ ∈ structs.map (·.1)
    rw [e1]
    exact c1.1 hz

theorem not_s {u : Uni} {imports : List Str} {ls : List Line} {file : File} {ex : Str → Out (List (Str × Ident))} {isSet : Bool}
    {i : Input} (hu : ¬ u.Ident (lit "s")) (h : parseFile u imports ls = .ok file) (hs : settle ex isSet file = .ok i) :
    (∀ s ∈ i.structs, s.1 ≠ lit "s") ∧ (∀ e ∈ i.enums, e.1 ≠ lit "s") := by
  obtain ⟨e1, e2, _⟩ := settle_facts h hs
  obtain ⟨_, hid, _⟩ := C70_distinct_names_partial h
  refine ⟨?_, ?_⟩
  · intro s hms he
    refine hu (he ▸ hid s.1 (List.mem_append_left _ ?_))
    rw [← e1]; exact List.mem_map.2 ⟨s, hms, rfl⟩
  · intro s hms he
    refine hu (he ▸ hid s.1 (List.mem_append_right _ ?_))
    rw [← e2]; exact List.mem_map.2 ⟨s, hms, rfl⟩

/-- C123, initialisation: for every schema that is accepted and rendered, the variables of the generated package can be
initialised exactly if no struct of the schema holds itself, directly or through other structs, whether as a field, in a
list or as the values of a map. `hu`: "s" is in lower case, so it is not an identifier. -/
theorem C123_cycle_iff {u : Uni} {imports : List Str} {ls : List Line} {file : File} {ex : Str → Out (List (Str × Ident))}
    {isSet : Bool} {i : Input} (hu : ¬ u.Ident (lit "s")) (h : parseFile u imports ls = .ok file)
    (hs : settle ex isSet file = .ok i) : (generate i).NoInitCycle ↔ NotRecursive i.structs := by
  obtain ⟨n1, n2⟩ := not_s hu h hs
  exact cycle_iff n1 n2 fun s hms f hf => ((settle_facts h hs).2.2 s hms f hf).1

/-- C123, references: for every schema that is accepted and rendered, all variables that initialisers refer to are
declared if the values of its maps are of types it declares as structs. -/
theorem C123_refs_partial {u : Uni} {imports : List Str} {ls : List Line} {file : File} {ex : Str → Out (List (Str × Ident))}
    {isSet : Bool} {i : Input} (h : parseFile u imports ls = .ok file) (hs : settle ex isSet file = .ok i)
    (hm : ∀ s ∈ i.structs, ∀ f ∈ s.2, ∀ k v n, f.map = some (.flat k v n) → n ≠ [] → n ∈ file.structs.map (·.1)) :
    (generate i).RefsDeclared := by
  obtain ⟨e1, _, hset⟩ := settle_facts h hs
  have sv : ∀ n, n ∈ i.structs.map (·.1) → mappingVar n ∈ packageNames i ∧ descrVar n ∈ packageNames i := by
    intro n hn
    obtain ⟨s, hs, rfl⟩ := List.mem_map.1 hn
    exact ⟨(mem_names_struct hs).2.1, (mem_names_struct hs).2.2⟩
  intro v hv r hr
  rw [decl_none]
  have := refers_iff.1 ⟨v.2, hv, hr⟩
  rcases this with ⟨s, hms, _, f, hf, x, hx, rfl⟩ | ⟨s, hms, _, hb⟩ | ⟨_, s, hms, rfl⟩ | ⟨_, hb⟩ | ⟨_, e, he, rfl⟩
  · refine (sv x ?_).1
    rcases hx with ⟨h1, h2, h3⟩ | ⟨_, h2, k, v, h3⟩
    · rcases (hset s hms f hf).1 with ⟨_, _, a, b⟩ | ⟨_, a, b, _⟩ | ⟨_, _, a⟩
      · exact absurd h1 (by simp [a, b])
      · exact absurd h1 (by simp [a, b])
      · rcases a with a | a
        · exact absurd (h2 ▸ a) h3
        · exact h2 ▸ a
    · rw [e1]; exact hm s hms f hf k v x h3 h2
  · rcases hb with rfl | ⟨f, hf, hb⟩
    · exact (mem_names_struct hms).2.1
    · unfold fieldDescrRefs isExternal at hb
      by_cases hd : (46 : UInt8) ∈ f.identName
      · simp [hd] at hb
      · simp only [hd, decide_false, Bool.false_eq_true, if_false] at hb
        rcases (hset s hms f hf).1 with ⟨a, b, _⟩ | ⟨a, _, _, b⟩ | ⟨a, _, b⟩
        · simp [a, b] at hb
        · simp [a] at hb
          rcases b with b | b
          · exact absurd b hd
          · obtain ⟨e, he, h6⟩ := List.mem_map.1 b
            rw [hb, ← h6]
            exact mem_names_group he
        · simp only [a, Bool.false_eq_true, if_false] at hb
          rcases b with b | b
          · exact absurd b hd
          · split at hb
            · simp at hb
              rw [hb]; exact (sv _ b).2
            · simp at hb
  · exact (mem_names_struct hms).2.2
  · rcases hb with ⟨hne, rfl⟩ | ⟨s, hms, rfl⟩
    · unfold packageNames fixedNames
      have : (!i.enums.isEmpty) = true := by
        cases hh : i.enums <;> simp_all
      simp [this]
    · exact (mem_names_struct hms).2.2
  · exact mem_names_group he

/-- C123, the methods of a struct: if the fields have names of their own that are safe, and the struct has no `int8`
field when IsSet is on, no method is declared twice and all are declared for that struct. -/
theorem C123_methods_partial {isSet : Bool} {s : Str × List Field} (hd : (s.2.map (·.name)).Nodup)
    (hf : ∀ f ∈ s.2, FreeField f.name) (h8 : isSet = true → ∀ f ∈ s.2, f.type ≠ .int8) :
    (structMethods isSet s).Nodup ∧ ∀ d ∈ structMethods isSet s, d.recv = some s.1 :=
  structMethods_nodup hd hf h8

/-- C123 for schemas that avoid what is shown below to go wrong: for every schema that is accepted and rendered, if its
structs, enums and enumerators have names of their own that are safe, if the fields of each struct do, if there are no
`int8` fields when IsSet is on, if the values of maps are of scalar types or structs of the schema, and if no struct holds
itself, then the generated package is valid. Missing: all other schemas that are accepted. -/
theorem C123_valid_partial {u : Uni} {imports : List Str} {ls : List Line} {file : File} {ex : Str → Out (List (Str × Ident))}
    {isSet : Bool} {i : Input} (hu : ¬ u.Ident (lit "s")) (h : parseFile u imports ls = .ok file)
    (hs : settle ex isSet file = .ok i)
    (names : (i.enums.map (·.1) ++ i.enums.flatMap (·.2) ++ i.structs.map (·.1)).Nodup)
    (free : ∀ n ∈ i.enums.map (·.1) ++ i.enums.flatMap (·.2) ++ i.structs.map (·.1), FreeName n)
    (fields : ∀ s ∈ i.structs, (s.2.map (·.name)).Nodup ∧ ∀ f ∈ s.2, FreeField f.name)
    (int8 : i.isSet = true → ∀ s ∈ i.structs, ∀ f ∈ s.2, f.type ≠ .int8)
    (maps : ∀ s ∈ i.structs, ∀ f ∈ s.2, ∀ k v n, f.map = some (.flat k v n) → n ≠ [] → n ∈ file.structs.map (·.1))
    (rec : NotRecursive i.structs) : (generate i).Valid := by
  have hm : ∀ s ∈ i.structs, (structMethods i.isSet s).Nodup ∧ ∀ d ∈ structMethods i.isSet s, d.recv = some s.1 :=
    fun s hms => C123_methods_partial (fields s hms).1 (fields s hms).2 fun hi => int8 hi s hms
  refine ⟨?_, ?_, C123_refs_partial h hs maps, (C123_cycle_iff hu h hs).2 rec⟩
  · unfold GoPkg.DeclaredOnce generate
    simp only
    rw [List.nodup_append, List.nodup_append]
    have en : ∀ e ∈ i.enums, ∀ s ∈ i.structs, e.1 ≠ s.1 := by
      intro e he s hms
      exact (List.nodup_append.1 names).2.2 e.1 (List.mem_append_left _ (List.mem_map.2 ⟨e, he, rfl⟩)) s.1
        (List.mem_map.2 ⟨s, hms, rfl⟩)
    refine ⟨⟨?_, ?_, ?_⟩, ?_, ?_⟩
    · simp only [List.Nodup, List.pairwise_map]
      exact (packageNames_nodup names free).imp fun hne he => hne (Decl.mk.inj he).2
    · unfold List.Nodup
      rw [List.pairwise_flatMap]
      refine ⟨?_, ?_⟩
      · intro e _
        rw [List.pairwise_map]
        exact (show enumMethods.Nodup by decide +kernel).imp fun hne he => hne (Decl.mk.inj he).2
      · have := (List.nodup_append.1 (List.nodup_append.1 names).1).1
        rw [List.nodup_iff_pairwise_ne, List.pairwise_map] at this
        refine this.imp ?_
        intro a b hne x hx y hy hxy
        subst hxy
        obtain ⟨_, _, rfl⟩ := List.mem_map.1 hx
        obtain ⟨_, _, hq⟩ := List.mem_map.1 hy
        exact hne (Option.some.inj (Decl.mk.inj hq).1).symm
    · intro a ha b hb hab
      subst hab
      obtain ⟨_, _, rfl⟩ := List.mem_map.1 ha
      obtain ⟨e, _, hb⟩ := List.mem_flatMap.1 hb
      obtain ⟨_, _, hq⟩ := List.mem_map.1 hb
      exact absurd (Decl.mk.inj hq).1 (by simp)
    · unfold List.Nodup
      rw [List.pairwise_flatMap]
      refine ⟨fun s hms => (hm s hms).1, ?_⟩
      have := (List.nodup_append.1 names).2.1
      rw [List.nodup_iff_pairwise_ne, List.pairwise_map] at this
      refine this.imp_of_mem ?_
      intro a b ha hb hne x hx y hy hxy
      subst hxy
      have h1 := (hm a ha).2 x hx
      have h2 := (hm b hb).2 x hy
      rw [h1] at h2
      exact hne (Option.some.inj h2)
    · intro a ha b hb hab
      subst hab
      obtain ⟨s, hms, hb⟩ := List.mem_flatMap.1 hb
      have hr := (hm s hms).2 a hb
      rcases List.mem_append.1 ha with ha | ha
      · obtain ⟨_, _, rfl⟩ := List.mem_map.1 ha
        simp at hr
      · obtain ⟨e, he, ha⟩ := List.mem_flatMap.1 ha
        obtain ⟨_, _, rfl⟩ := List.mem_map.1 ha
        simp at hr
        exact en e he s hms hr
  · intro d hd t ht
    rw [decl_none]
    unfold generate at hd
    simp only [List.mem_append] at hd
    rcases hd with (hd | hd) | hd
    · obtain ⟨_, _, rfl⟩ := List.mem_map.1 hd
      simp at ht
    · obtain ⟨e, he, hd⟩ := List.mem_flatMap.1 hd
      obtain ⟨_, _, rfl⟩ := List.mem_map.1 hd
      simp at ht
      exact ht ▸ mem_names_enum he
    · obtain ⟨s, hms, hd⟩ := List.mem_flatMap.1 hd
      have hr := (hm s hms).2 d hd
      rw [hr] at ht
      exact Option.some.inj ht ▸ (mem_names_struct hms).1

/-! ## Schemas that are accepted and whose package does not compile -/

/-- Parse, then settle. -/
def compile (isSet : Bool) (ls : List Line) : Out Input := do
  let file ← parseFile ascii [] ls
  settle (fun _ => .err) isSet file

/-- A file of one struct with the given lines of fields. -/
def oneStruct (name : String) (fields : List (List String)) : List Line :=
  ⟨[lit "Struct", lit name, lit "{", lit "\n"], false⟩ ::
    (fields.map fun l => ⟨l.map lit ++ [lit "\n"], false⟩) ++ [⟨[lit "}", []], true⟩]

theorem compile_ok {isSet : Bool} {ls : List Line} {p : Input → Bool}
    (h : (match compile isSet ls with | .ok i => p i | _ => false) = true) :
    ∃ file i, parseFile ascii [] ls = .ok file ∧ settle (fun _ => .err) isSet file = .ok i ∧ p i = true := by
  split at h
  · rename_i i hc
    simp only [compile, Out.bind_eq_ok] at hc
    obtain ⟨file, h1, h2⟩ := hc
    exact ⟨file, i, h1, h2, h⟩
  · simp at h

theorem not_s_ascii : ¬ ascii.Ident (lit "s") := by
  intro h
  have := validateIdent_ok.2 h
  exact absurd this (by decide +kernel)

/-- A careful schema: an enum, two structs, lists, a map to structs, and nothing recursive. -/
def carefulFile : List Line :=
  [⟨[lit "Enum", lit "Color", lit "uint16", lit "{", lit "\n"], false⟩,
   ⟨[lit "Red", lit "@0", lit "\n"], false⟩,
   ⟨[lit "Green", lit "@1", lit "\n"], false⟩,
   ⟨[lit "}", lit "\n"], false⟩,
   ⟨[lit "Struct", lit "Car", lit "{", lit "\n"], false⟩,
   ⟨[lit "Paint", lit "Color", lit "@0", lit "\n"], false⟩,
   ⟨[lit "Wheels", lit "[]Wheel", lit "@1", lit "\n"], false⟩,
   ⟨[lit "Spares", lit "map[string]Wheel", lit "@2", lit "\n"], false⟩,
   ⟨[lit "Extra", lit "Any", lit "@3", lit "\n"], false⟩,
   ⟨[lit "}", lit "\n"], false⟩,
   ⟨[lit "Struct", lit "Wheel", lit "{", lit "\n"], false⟩,
   ⟨[lit "Size", lit "float32", lit "@0", lit "\n"], false⟩,
   ⟨[lit "}", []], true⟩]

def freeB (pres sufs : List String) (reserved : List Str) (n : Str) : Bool :=
  !n.isEmpty && pres.all (fun p => !(lit p).isPrefixOf n) && sufs.all (fun s => !(lit s).isSuffixOf n) &&
    ("" :: pres).all fun p => ("" :: sufs).all fun s => !(reserved.contains (lit p ++ (n ++ lit s)))

theorem free_of_freeB {pres sufs : List String} {reserved : List Str} {n : Str} (h : freeB pres sufs reserved n = true) :
    Free pres sufs reserved n := by
  simp only [freeB, Bool.and_eq_true, List.all_eq_true, Bool.not_eq_true', ← Bool.not_eq_true, List.isPrefixOf_iff_prefix,
    List.isSuffixOf_iff_suffix, List.contains_iff_mem, List.isEmpty_iff] at h
  exact ⟨h.1.1.1, h.1.1.2, h.1.2, h.2⟩

/-- The structs a field holds, as a list. -/
def heldBy (f : Field) : List Str :=
  (if f.type = .struct ∨ f.type = .listStructs then [f.identName] else []) ++
    match f.map with
    | some (.flat _ _ b) => if f.type = .map ∧ b ≠ [] then [b] else []
    | _ => []

theorem mem_heldBy {f : Field} {b : Str} (h : HasStruct f b) : b ∈ heldBy f := by
  unfold heldBy
  rcases h with ⟨h1, rfl, _⟩ | ⟨h1, h2, k, v, h3⟩
  · simp [h1]
  · simp [h1, h2, h3]

theorem notRecursive_of_rank {structs : List (Str × List Field)} (r : Str → Nat)
    (h : ∀ s ∈ structs, ∀ f ∈ s.2, ∀ b ∈ heldBy f, r b < r s.1) : NotRecursive structs := by
  have key : ∀ {a b}, Relation.TransGen (Holds structs) a b → r b < r a := by
    intro a b hab
    have one : ∀ {x y}, Holds structs x y → r y < r x := by
      rintro x y ⟨fs, hm, f, hf, hb⟩
      exact h _ hm f hf y (mem_heldBy hb)
    induction hab with
    | single h1 => exact one h1
    | tail _ h1 ih => exact Nat.lt_trans (one h1) ih
  intro a ha
  exact Nat.lt_irrefl _ (key ha)

/-- A schema that meets all hypotheses of `C123_valid_partial`, so its package is valid. -/
theorem C123_careful_valid : ∃ file i, parseFile ascii [] carefulFile = .ok file ∧
    settle (fun _ => .err) true file = .ok i ∧ i.structs.length = 2 ∧ (generate i).decls.length = 92 ∧ (generate i).Valid := by
  obtain ⟨file, i, h1, h2, h3⟩ := compile_ok (isSet := true) (ls := carefulFile) (p := fun i =>
    decide (i.structs.map (·.1) = [lit "Car", lit "Wheel"]) &&
    decide ((generate i).decls.length = 92) &&
    decide (i.enums.map (·.1) ++ i.enums.flatMap (·.2) ++ i.structs.map (·.1)).Nodup &&
    (i.enums.map (·.1) ++ i.enums.flatMap (·.2) ++ i.structs.map (·.1)).all (freeB
      ["New", "XXXNew", "XXXTypeHash", "XXXMapping", "XXXStructDescr", "XXXEnumGroup"]
      ["From", "Raw", "FromRaw", "ByName", "ByValue"]
      [lit "SyntaxVersion", lit "_package", lit "_packagePath", lit "XXXStructDescrs", lit "XXXPackageDescr",
       lit "PackageDescr", lit "XXXEnumGroups"]) &&
    i.structs.all (fun s => decide (s.2.map (·.name)).Nodup && s.2.all fun f => freeB
      ["Set", "IsSet", "SafeGet"]
      ["List", "Len", "Get", "Append", "AppendRaw", "Map", "Set", "GetRaw", "ListLen", "Delete", "Has", "Raw"]
      [lit "Release", lit "Marshal", lit "MarshalSafe", lit "MarshalWriter", lit "Unmarshal", lit "UnmarshalReader",
       lit "ClawStruct", lit "XXXGetStruct", lit "XXXTypeHash", lit "SetRecording", lit "Recording", lit "DrainRecordedOps",
       lit "RecordedOpsLen", lit "ToRaw", lit "XXXDescr", lit "Walk", lit "Ingest", lit "XXXIngestFrom"] f.name) &&
    i.structs.all (fun s => s.2.all fun f => decide (f.type ≠ .int8)) &&
    i.structs.all (fun s => s.2.all fun f => (heldBy f).all fun b => decide (b = lit "Wheel") && decide (s.1 = lit "Car")) &&
    i.structs.all (fun s => s.2.all fun f => match f.map with
      | some (.flat _ _ n) => decide (n = lit "Wheel")
      | _ => true)) (by decide +kernel)
  simp only [Bool.and_eq_true, decide_eq_true_eq, List.all_eq_true] at h3
  obtain ⟨⟨⟨⟨⟨⟨⟨k1, k2⟩, k3⟩, k4⟩, k5⟩, k6⟩, k7⟩, k8⟩ := h3
  refine ⟨file, i, h1, h2, by rw [← List.length_map (f := (·.1)), k1]; rfl, k2, ?_⟩
  refine C123_valid_partial not_s_ascii h1 h2 k3 (fun n hn => free_of_freeB (k4 n hn))
    (fun s hs => ⟨(k5 s hs).1, fun f hf => free_of_freeB ((k5 s hs).2 f hf)⟩) (fun _ => k6) ?_ ?_
  · intro s hs f hf k v n hm _
    have := k8 s hs f hf
    rw [hm] at this
    simp only [decide_eq_true_eq] at this
    rw [← (settle_facts h1 h2).1, k1, this]
    simp
  · refine notRecursive_of_rank (fun n => if n = lit "Wheel" then 0 else 1) ?_
    intro s hs f hf b hb
    obtain ⟨e1, e2⟩ := k7 s hs f hf b hb
    rw [e1, e2]
    decide

/-- C123 fails for recursive structs: of every schema that is accepted and rendered and in which a struct holds itself,
directly or through others, the package does not compile. -/
theorem C123_recursive_fails {u : Uni} {imports : List Str} {ls : List Line} {file : File}
    {ex : Str → Out (List (Str × Ident))} {isSet : Bool} {i : Input} (hu : ¬ u.Ident (lit "s"))
    (h : parseFile u imports ls = .ok file) (hs : settle ex isSet file = .ok i) {a : Str}
    (ha : Relation.TransGen (Holds i.structs) a a) : ¬ (generate i).Valid :=
  fun hv => (C123_cycle_iff hu h hs).1 hv.acyclic a ha

/-- Such a schema: a linked list, with a field for which the parser sets SelfReferential. -/
theorem C123_linked_list : ∃ file i, parseFile ascii [] (oneStruct "Node" [["Next", "Node", "@0"]]) = .ok file ∧
    settle (fun _ => .err) false file = .ok i ∧ (∃ s ∈ file.structs, ∃ f ∈ s.2, f.selfRef = true) ∧ ¬ (generate i).Valid := by
  have hsr : (match parseFile ascii [] (oneStruct "Node" [["Next", "Node", "@0"]]) with
    | .ok file => decide (∃ s ∈ file.structs, ∃ f ∈ s.2, f.selfRef = true) | _ => false) = true := by decide +kernel
  obtain ⟨file, i, h1, h2, h3⟩ := compile_ok (isSet := false) (ls := oneStruct "Node" [["Next", "Node", "@0"]])
    (p := fun i => decide (∃ s ∈ i.structs, s.1 = lit "Node" ∧
      ∃ f ∈ s.2, f.type = .struct ∧ f.identName = lit "Node")) (by decide +kernel)
  simp only [decide_eq_true_eq] at h3
  obtain ⟨s, hs, hn, f, hf, ht, hi⟩ := h3
  rw [h1] at hsr
  simp only [decide_eq_true_eq] at hsr
  refine ⟨file, i, h1, h2, hsr, C123_recursive_fails not_s_ascii h1 h2 (a := lit "Node") (.single ?_)⟩
  exact ⟨s.2, hn ▸ hs, f, hf, Or.inl ⟨Or.inl ht, hi, by decide⟩⟩

theorem not_nodup_flatMap {α β : Type} {f : α → List β} {l : List α} {a b : α} {x : β} (ha : a ∈ l) (hb : b ∈ l) (hne : a ≠ b)
    (h1 : x ∈ f a) (h2 : x ∈ f b) : ¬ (l.flatMap f).Nodup := by
  intro h
  unfold List.Nodup at h
  rw [List.pairwise_flatMap] at h
  have key : ∀ l : List α, l.Pairwise (fun a1 a2 => ∀ x ∈ f a1, ∀ y ∈ f a2, x ≠ y) → a ∈ l → b ∈ l → False := by
    intro l hp ha hb
    induction hp with
    | nil => simp at ha
    | cons h _ ih =>
      rcases List.mem_cons.1 ha with rfl | ha'
      · rcases List.mem_cons.1 hb with rfl | hb'
        · exact hne rfl
        · exact h b hb' x h1 x h2 rfl
      · rcases List.mem_cons.1 hb with rfl | hb'
        · exact h a ha' x h2 x h1 rfl
        · exact ih ha' hb'
  exact key l h.2 ha hb

theorem once_methods {i : Input} (h : (generate i).DeclaredOnce) {s : Str × List Field} (hs : s ∈ i.structs) :
    (structMethods i.isSet s).Nodup := by
  unfold GoPkg.DeclaredOnce generate at h
  have := (List.nodup_append.1 h).2.1
  unfold List.Nodup at this
  rw [List.pairwise_flatMap] at this
  exact this.1 s hs

/-- C123 fails for fields of which one is named like a method of the other: two fields of one struct of any schema, one
method of each, and the same name for both. -/
theorem C123_field_clash {i : Input} {s : Str × List Field} (hs : s ∈ i.structs) {f g : Field} (hf : f ∈ s.2) (hg : g ∈ s.2)
    (hne : f ≠ g) {p q : String × String} (hp : p ∈ fieldForms f) (hq : q ∈ fieldForms g)
    (he : lit p.1 ++ (f.name ++ lit p.2) = lit q.1 ++ (g.name ++ lit q.2)) : ¬ (generate i).Valid := by
  intro hv
  have := (List.nodup_append.1 (once_methods hv.once hs)).2.1
  refine not_nodup_flatMap (x := ⟨some s.1, lit p.1 ++ (f.name ++ lit p.2)⟩) hf hg hne ?_ ?_ this
  · exact List.mem_append_left _ (List.mem_map.2 ⟨p, hp, rfl⟩)
  · exact List.mem_append_left _ (List.mem_map.2 ⟨q, hq, by rw [he]⟩)

/-- C123 fails for fields named like a method all structs have. -/
theorem C123_method_clash {i : Input} {s : Str × List Field} (hs : s ∈ i.structs) {f : Field} (hf : f ∈ s.2)
    {p : String × String} (hp : p ∈ fieldForms f) (he : lit p.1 ++ (f.name ++ lit p.2) ∈ fixedMethods) :
    ¬ (generate i).Valid := by
  intro hv
  have := (List.nodup_append.1 (once_methods hv.once hs)).2.2
  refine this ⟨some s.1, lit p.1 ++ (f.name ++ lit p.2)⟩ (List.mem_map.2 ⟨_, he, rfl⟩) _
    (List.mem_flatMap.2 ⟨f, hf, List.mem_append_left _ (List.mem_map.2 ⟨p, hp, rfl⟩)⟩) rfl

/-- C123 fails for structs of which one is named like something the other declares. -/
theorem C123_struct_clash {i : Input} {s t : Str × List Field} (hs : s ∈ i.structs) (ht : t ∈ i.structs) (hne : s ≠ t)
    {p q : String × String} (hp : p ∈ structForms) (hq : q ∈ structForms) (he : withAffixes s.1 p = withAffixes t.1 q) :
    ¬ (generate i).Valid := by
  intro hv
  have h := hv.once
  unfold GoPkg.DeclaredOnce generate at h
  have := (List.nodup_append.1 (List.nodup_append.1 h).1).1
  have h2 : (packageNames i).Nodup := by
    unfold List.Nodup at this
    rw [List.pairwise_map] at this
    exact this.imp fun hd he => hd (by rw [he])
  have h3 := (List.nodup_append.1 h2).2.1
  refine not_nodup_flatMap (x := withAffixes s.1 p) hs ht hne ?_ ?_ h3
  · exact List.mem_map.2 ⟨p, hp, rfl⟩
  · exact List.mem_map.2 ⟨q, hq, he.symm⟩

/-- C123 fails for structs named like something all packages declare. -/
theorem C123_package_clash {i : Input} {s : Str × List Field} (hs : s ∈ i.structs) {p : String × String} (hp : p ∈ structForms)
    (he : withAffixes s.1 p ∈ fixedNames (!i.enums.isEmpty)) : ¬ (generate i).Valid := by
  intro hv
  have h := hv.once
  unfold GoPkg.DeclaredOnce generate at h
  have := (List.nodup_append.1 (List.nodup_append.1 h).1).1
  have h2 : (packageNames i).Nodup := by
    unfold List.Nodup at this
    rw [List.pairwise_map] at this
    exact this.imp fun hd he => hd (by rw [he])
  exact (List.nodup_append.1 h2).2.2 _ (List.mem_append_left _ he) _
    (List.mem_flatMap.2 ⟨s, hs, List.mem_map.2 ⟨p, hp, rfl⟩⟩) rfl

/-- C123 fails for `int8` fields when IsSet is on: of any schema with such a field, unless the field is named like
something the package declares. -/
theorem C123_int8_fails {i : Input} (hi : i.isSet = true) {s : Str × List Field} (hs : s ∈ i.structs) {f : Field}
    (hf : f ∈ s.2) (h8 : f.type = .int8) (hn : f.name ∉ packageNames i) : ¬ (generate i).Valid := by
  intro hv
  refine hn (decl_none.1 (hv.receivers ⟨some f.name, lit "IsSet" ++ f.name⟩ ?_ f.name rfl))
  unfold generate
  refine List.mem_append_right _ (List.mem_flatMap.2 ⟨s, hs, List.mem_append_right _ (List.mem_flatMap.2 ⟨f, hf, ?_⟩)⟩)
  simp [fieldMethods, hi, h8, isSetRecv]

/-- C123 fails for maps whose values are of a type that the schema does not declare as a struct, be it an enum, something
imported or nothing at all. -/
theorem C123_map_value_fails {i : Input} {s : Str × List Field} (hs : s ∈ i.structs) {f : Field} (hf : f ∈ s.2)
    (ht : f.type = .map) {k v : FT} {n : Str} (hm : f.map = some (.flat k v n)) (hn : n ≠ [])
    (hd : mappingVar n ∉ packageNames i) : ¬ (generate i).Valid := by
  intro hv
  refine hd (decl_none.1 (hv.refs (mappingVar s.1, s.2.flatMap fieldMappingRefs) ?_ _ ?_))
  · simp only [generate, packageVars, List.mem_append]
    exact Or.inl (Or.inl (Or.inl (List.mem_map.2 ⟨s, hs, rfl⟩)))
  · exact List.mem_flatMap.2 ⟨f, hf, by simp [fieldMappingRefs, ht, hm, hn]⟩

/-- Schemas that are accepted and meet the hypotheses of the six theorems above. -/
example : (match compile false (oneStruct "A" [["X", "bool", "@0"], ["SetX", "string", "@1"]]) with
    | .ok i => decide (∃ s ∈ i.structs, ∃ f ∈ s.2, ∃ g ∈ s.2, f ≠ g ∧ ∃ p ∈ fieldForms f, ∃ q ∈ fieldForms g,
        lit p.1 ++ (f.name ++ lit p.2) = lit q.1 ++ (g.name ++ lit q.2))
    | _ => false) = true := by decide +kernel

example : (match compile false (oneStruct "A" [["RecordedOps", "[]A", "@0"]]) with
    | .ok i => decide (∃ s ∈ i.structs, ∃ f ∈ s.2, ∃ p ∈ fieldForms f, lit p.1 ++ (f.name ++ lit p.2) ∈ fixedMethods)
    | _ => false) = true := by decide +kernel

example : (match compile false (oneStruct "A" [["Walk", "bool", "@0"]]) with
    | .ok i => decide (∃ s ∈ i.structs, ∃ f ∈ s.2, ∃ p ∈ fieldForms f, lit p.1 ++ (f.name ++ lit p.2) ∈ fixedMethods)
    | _ => false) = true := by decide +kernel

example : (match compile false ((oneStruct "A" [["X", "bool", "@0"]]).dropLast ++ [⟨[lit "}", lit "\n"], false⟩] ++
      oneStruct "NewA" [["X", "bool", "@0"]]) with
    | .ok i => decide (∃ s ∈ i.structs, ∃ t ∈ i.structs, s ≠ t ∧ ∃ p ∈ structForms, ∃ q ∈ structForms,
        withAffixes s.1 p = withAffixes t.1 q)
    | _ => false) = true := by decide +kernel

example : (match compile false (oneStruct "PackageDescr" [["X", "bool", "@0"]]) with
    | .ok i => decide (∃ s ∈ i.structs, ∃ p ∈ structForms, withAffixes s.1 p ∈ fixedNames (!i.enums.isEmpty))
    | _ => false) = true := by decide +kernel

example : (match compile true (oneStruct "A" [["X", "int8", "@0"]]) with
    | .ok i => decide (i.isSet = true ∧ ∃ s ∈ i.structs, ∃ f ∈ s.2, f.type = .int8 ∧ f.name ∉ packageNames i)
    | _ => false) = true := by decide +kernel

example : (match compile false (oneStruct "A" [["M", "map[string]B", "@0"]]) with
    | .ok i => decide (∃ s ∈ i.structs, ∃ f ∈ s.2, f.type = .map ∧ f.map = some (.flat .string .struct (lit "B")) ∧
        mappingVar (lit "B") ∉ packageNames i)
    | _ => false) = true := by decide +kernel

end Claw.GenGo
