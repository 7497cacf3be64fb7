import Verif.Spec.GenImports
import Verif.Props.ModFile

/-!
# C129: the imports of generated Go files
-/

namespace Claw.GenImports

theorem mem_dedup {a : Str} : ∀ {l : List Str}, a ∈ dedup l ↔ a ∈ l
  | [] => by simp [dedup]
  | b :: l => by
    simp only [dedup]
    split
    · next h =>
      rw [mem_dedup, List.mem_cons]
      constructor
      · exact .inr
      · rintro (rfl | h')
        · exact h
        · exact h'
    · rw [List.mem_cons, List.mem_cons, mem_dedup]

theorem nodup_dedup : ∀ (l : List Str), (dedup l).Nodup
  | [] => by simp [dedup]
  | b :: l => by
    simp only [dedup]
    split
    · exact nodup_dedup l
    · next h => exact List.nodup_cons.2 ⟨fun h' => h (mem_dedup.1 h'), nodup_dedup l⟩

theorem nodup_map_of {α β : Type} {f : α → β} : ∀ {l : List α}, l.Nodup → (∀ a ∈ l, ∀ b ∈ l, f a = f b → a = b) → (l.map f).Nodup
  | [], _, _ => by simp
  | a :: l, h, hf => by
    rw [List.map_cons, List.nodup_cons]
    rw [List.nodup_cons] at h
    refine ⟨?_, nodup_map_of h.2 (fun x hx y hy => hf x (by simp [hx]) y (by simp [hy]))⟩
    rw [List.mem_map]
    rintro ⟨b, hb, e⟩
    exact h.1 (hf b (by simp [hb]) a (by simp) e ▸ hb)

theorem pair_of_nodup {l : List (Str × Str)} (h : (l.map (·.1)).Nodup) {n p q : Str} (hp : (n, p) ∈ l) (hq : (n, q) ∈ l) : p = q := by
  induction l with
  | nil => simp at hp
  | cons x l ih =>
    simp only [List.map_cons, List.nodup_cons, List.mem_map, not_exists, not_and] at h
    rcases List.mem_cons.1 hp with hp | hp <;> rcases List.mem_cons.1 hq with hq | hq
    · rw [hp.symm] at hq; exact (Prod.mk.inj hq).2.symm
    · exact absurd (by rw [← hp]) (h.1 _ hq)
    · exact absurd (by rw [← hq]) (h.1 _ hp)
    · exact ih h.2 hp hq

/-- A file that has the fixed imports and those of the packages of some uses. -/
theorem file_ok_iff (i : Input) (fixed : List (Str × Str)) (paths : List Str) (us : List Use) (plain : List Str)
    (hfix : (fixed.map (·.1)).Nodup) (hleg : ∀ x ∈ fixed, x.1 ∉ unbindable) (hpl : ∀ n ∈ plain, n ∉ fixed.map (·.1))
    (hpaths : ∀ p, p ∈ paths ↔ ∃ u ∈ us, u.path = p)
    (hus : ∀ u ∈ us, (u.name, u.path) ∈ i.imports) (hnames : (i.imports.map (·.1)).Nodup)
    (hclaw : ∀ x ∈ i.imports, x.2 ∉ fixed.map (·.2)) :
    GoFile.Ok ⟨fixed ++ (dedup paths).map fun p => (i.goName p, p), fixedUses fixed ++ us, plain⟩ ↔
      (∀ u ∈ us, Importable i fixed plain (u.name, u.path)) ∧ ∀ u ∈ us, u.name ∉ u.locals := by
  constructor
  · intro h
    have hb : ∀ u ∈ us, u.name = i.goName u.path := by
      intro u hu
      have := (h.bound u (List.mem_append_right _ hu)).2
      rcases List.mem_append.1 this with hf | hf
      · exact absurd (List.mem_map.2 ⟨_, hf, rfl⟩) (hclaw _ (hus u hu))
      · obtain ⟨p, _, e⟩ := List.mem_map.1 hf
        have := Prod.mk.inj e
        rw [← this.1, this.2]
    have hin : ∀ u ∈ us, (u.name, u.path) ∈ (dedup paths).map fun p => (i.goName p, p) := by
      intro u hu
      exact List.mem_map.2 ⟨u.path, mem_dedup.2 ((hpaths _).2 ⟨u, hu, rfl⟩), by rw [hb u hu]⟩
    refine ⟨fun u hu => ⟨hb u hu, h.legal _ (List.mem_append_right _ (hin u hu)), ?_, ?_⟩, fun u hu => (h.bound u (List.mem_append_right _ hu)).1⟩
    · intro hn
      have := h.once
      simp only [List.map_append] at this
      exact (List.nodup_append.1 this).2.2 _ hn _ (List.mem_map.2 ⟨_, hin u hu, rfl⟩) rfl
    · intro hn
      refine h.plain _ hn ?_
      simp only [List.map_append]
      exact List.mem_append_right _ (List.mem_map.2 ⟨_, hin u hu, rfl⟩)
  · rintro ⟨h1, h2⟩
    have hinj : ∀ p ∈ dedup paths, ∀ q ∈ dedup paths, i.goName p = i.goName q → p = q := by
      intro p hp q hq e
      obtain ⟨u, hu, rfl⟩ := (hpaths p).1 (mem_dedup.1 hp)
      obtain ⟨w, hw, rfl⟩ := (hpaths q).1 (mem_dedup.1 hq)
      have hn : u.name = w.name := by
        have a := (h1 u hu).1
        have b := (h1 w hw).1
        simp only at a b
        rw [a, b, e]
      exact pair_of_nodup hnames (hus u hu) (hn ▸ hus w hw)
    have hname : ∀ p ∈ dedup paths, ∃ u ∈ us, u.path = p ∧ u.name = i.goName p := by
      intro p hp
      obtain ⟨u, hu, rfl⟩ := (hpaths p).1 (mem_dedup.1 hp)
      exact ⟨u, hu, rfl, (h1 u hu).1⟩
    have hmap : ((dedup paths).map fun p => (i.goName p, p)).map (·.1) = (dedup paths).map i.goName := by
      rw [List.map_map]; rfl
    refine ⟨?_, ?_, ?_, ?_, ?_⟩
    · simp only [List.map_append, hmap]
      refine List.nodup_append.2 ⟨hfix, nodup_map_of (nodup_dedup _) hinj, ?_⟩
      intro a ha b hb e
      obtain ⟨p, hp, rfl⟩ := List.mem_map.1 hb
      obtain ⟨u, hu, rfl, hn⟩ := hname p hp
      exact (h1 u hu).2.2.1 (by rw [hn, ← e]; exact ha)
    · intro x hx
      rcases List.mem_append.1 hx with hx | hx
      · exact hleg x hx
      · obtain ⟨p, hp, rfl⟩ := List.mem_map.1 hx
        obtain ⟨u, hu, rfl, hn⟩ := hname p hp
        have := (h1 u hu).2.1
        simp only at this ⊢
        rw [← hn]; exact this
    · intro u hu
      rcases List.mem_append.1 hu with hu | hu
      · obtain ⟨x, hx, rfl⟩ := List.mem_map.1 hu
        exact ⟨by simp, List.mem_append_left _ hx⟩
      · refine ⟨h2 u hu, List.mem_append_right _ (List.mem_map.2 ⟨u.path, mem_dedup.2 ((hpaths _).2 ⟨u, hu, rfl⟩), ?_⟩)⟩
        have := (h1 u hu).1
        simp only at this
        rw [this]
    · intro x hx
      rcases List.mem_append.1 hx with hx | hx
      · exact ⟨⟨x.1, x.2, []⟩, List.mem_append_left _ (List.mem_map.2 ⟨x, hx, rfl⟩), rfl, by simp⟩
      · obtain ⟨p, hp, rfl⟩ := List.mem_map.1 hx
        obtain ⟨u, hu, _, hn⟩ := hname p hp
        exact ⟨u, List.mem_append_right _ hu, hn, h2 u hu⟩
    · intro n hn
      simp only [List.map_append, hmap]
      intro hm
      rcases List.mem_append.1 hm with hm | hm
      · exact hpl n hn hm
      · obtain ⟨p, hp, rfl⟩ := List.mem_map.1 hm
        obtain ⟨u, hu, rfl, hname⟩ := hname p hp
        exact (h1 u hu).2.2.2 (by rw [hname]; exact hn)

/-! ### The three files -/

theorem predeclared_main : ∀ n ∈ predeclared, n ∉ mainFixed.map (·.1) := by decide
theorem predeclared_iter : ∀ b, ∀ n ∈ predeclared, n ∉ (iterFixed b).map (·.1) := by decide
theorem predeclared_ingest : ∀ n ∈ predeclared, n ∉ ingestFixed.map (·.1) := by decide

theorem sane_claw {i : Input} (hs : i.Sane) (b : Bool) (x : Str × Str) (hx : x ∈ i.imports) :
    x.2 ∉ mainFixed.map (·.2) ∧ x.2 ∉ (iterFixed b).map (·.2) ∧ x.2 ∉ ingestFixed.map (·.2) := by
  have h := hs.claw x hx
  simp only [List.map_append, List.mem_append, not_or] at h
  refine ⟨h.1.1, ?_, h.2⟩
  intro hm
  apply h.1.2
  cases b with
  | true => exact hm
  | false =>
    simp only [iterFixed, Bool.false_eq_true, if_false, List.append_nil] at hm
    simp only [iterFixed, if_true, List.map_append]
    exact List.mem_append_left _ hm

/-- The main file is accepted exactly if all imports have the names of their packages, none of which is that of a package of the fixed
text or a predeclared name that is used, and no package of a field has the name of a variable in scope where it is named. -/
theorem C129_main_iff (i : Input) (hs : i.Sane) :
    (mainFile i).Ok ↔ (∀ x ∈ i.imports, Importable i mainFixed (lit "string" :: i.builtins 0) x) ∧
      ∀ f ∈ i.fields, f.name ∉ mainLocals f.kind := by
  have hplain : ∀ n ∈ lit "string" :: i.builtins 0, n ∉ mainFixed.map (·.1) := by
    intro n hn
    rcases List.mem_cons.1 hn with rfl | hn
    · decide
    · exact predeclared_main n (hs.builtins 0 n hn)
  have key := file_ok_iff i mainFixed (i.fields.map (·.path) ++ i.imports.map (·.2))
    ((i.imports.map fun x => ⟨x.1, x.2, []⟩) ++ i.fields.map fun f => ⟨f.name, f.path, mainLocals f.kind⟩)
    (lit "string" :: i.builtins 0) (by decide) (by decide) hplain
    (by
      intro p
      simp only [List.mem_append, List.mem_map]
      constructor
      · rintro (⟨f, hf, rfl⟩ | ⟨x, hx, rfl⟩)
        · exact ⟨_, .inr ⟨f, hf, rfl⟩, rfl⟩
        · exact ⟨_, .inl ⟨x, hx, rfl⟩, rfl⟩
      · rintro ⟨u, ⟨x, hx, rfl⟩ | ⟨f, hf, rfl⟩, rfl⟩
        · exact .inr ⟨x, hx, rfl⟩
        · exact .inl ⟨f, hf, rfl⟩)
    (by
      intro u hu
      rcases List.mem_append.1 hu with hu | hu
      · obtain ⟨x, hx, rfl⟩ := List.mem_map.1 hu; exact hx
      · obtain ⟨f, hf, rfl⟩ := List.mem_map.1 hu; exact hs.fields f hf)
    hs.names (fun x hx => (sane_claw hs true x hx).1)
  rw [mainFile, List.append_assoc, key]
  constructor
  · rintro ⟨h1, h2⟩
    exact ⟨fun x hx => h1 ⟨x.1, x.2, []⟩ (List.mem_append_left _ (List.mem_map.2 ⟨x, hx, rfl⟩)),
      fun f hf => h2 ⟨f.name, f.path, mainLocals f.kind⟩ (List.mem_append_right _ (List.mem_map.2 ⟨f, hf, rfl⟩))⟩
  · rintro ⟨h1, h2⟩
    constructor
    · intro u hu
      rcases List.mem_append.1 hu with hu | hu
      · obtain ⟨x, hx, rfl⟩ := List.mem_map.1 hu; exact h1 x hx
      · obtain ⟨f, hf, rfl⟩ := List.mem_map.1 hu; exact h1 _ (hs.fields f hf)
    · intro u hu
      rcases List.mem_append.1 hu with hu | hu
      · obtain ⟨x, hx, rfl⟩ := List.mem_map.1 hu; simp
      · obtain ⟨f, hf, rfl⟩ := List.mem_map.1 hu; exact h2 f hf

/-- A file whose uses besides the fixed text are those of some fields. -/
theorem fields_ok_iff (i : Input) (hs : i.Sane) (fixed : List (Str × Str)) (fs : List Ext) (hfs : ∀ f ∈ fs, f ∈ i.fields)
    (locals : Kind → List Str) (plain : List Str) (hfix : (fixed.map (·.1)).Nodup) (hleg : ∀ x ∈ fixed, x.1 ∉ unbindable) (hpl : ∀ n ∈ plain, n ∉ fixed.map (·.1))
    (hclaw : ∀ x ∈ i.imports, x.2 ∉ fixed.map (·.2)) :
    GoFile.Ok ⟨fixed ++ (dedup (fs.map (·.path))).map fun p => (i.goName p, p),
      fixedUses fixed ++ fs.map fun f => ⟨f.name, f.path, locals f.kind⟩, plain⟩ ↔
      ∀ f ∈ fs, Importable i fixed plain (f.name, f.path) ∧ f.name ∉ locals f.kind := by
  have key := file_ok_iff i fixed (fs.map (·.path)) (fs.map fun f => ⟨f.name, f.path, locals f.kind⟩) plain hfix hleg hpl
    (by
      intro p
      simp only [List.mem_map]
      constructor
      · rintro ⟨f, hf, rfl⟩; exact ⟨_, ⟨f, hf, rfl⟩, rfl⟩
      · rintro ⟨u, ⟨f, hf, rfl⟩, rfl⟩; exact ⟨f, hf, rfl⟩)
    (by
      intro u hu
      obtain ⟨f, hf, rfl⟩ := List.mem_map.1 hu; exact hs.fields f (hfs f hf))
    hs.names hclaw
  rw [key]
  constructor
  · rintro ⟨h1, h2⟩ f hf
    exact ⟨h1 ⟨f.name, f.path, locals f.kind⟩ (List.mem_map.2 ⟨f, hf, rfl⟩), h2 ⟨f.name, f.path, locals f.kind⟩ (List.mem_map.2 ⟨f, hf, rfl⟩)⟩
  · intro h
    constructor <;> intro u hu <;> obtain ⟨f, hf, rfl⟩ := List.mem_map.1 hu
    · exact (h f hf).1
    · exact (h f hf).2

/-- clawiter.go is accepted exactly if the packages of fields that are enums can be named in it. -/
theorem C129_iter_iff (i : Input) (hs : i.Sane) :
    (iterFile i).Ok ↔ ∀ f ∈ i.fields, f.kind.isEnum = true →
      Importable i (iterFixed i.hasFields) (i.builtins 1) (f.name, f.path) ∧ f.name ∉ iterLocals f.kind := by
  have he : (i.fields.filter fun f => f.kind.inIter) = i.fields.filter fun f => f.kind.isEnum := by
    have : (fun f : Ext => f.kind.inIter) = fun f => f.kind.isEnum := by
      funext f
      cases f.kind <;> rfl
    rw [this]
  rw [iterFile, he, fields_ok_iff i hs (iterFixed i.hasFields) (i.fields.filter fun f => f.kind.isEnum) (fun f hf => (List.mem_filter.1 hf).1)
    iterLocals (i.builtins 1) (by cases i.hasFields <;> decide) (by cases i.hasFields <;> decide) (fun n hn => predeclared_iter _ n (hs.builtins 1 n hn))
    (fun x hx => (sane_claw hs _ x hx).2.1)]
  simp only [List.mem_filter, and_imp]

/-- clawingest.go is accepted exactly if the packages of fields can be named in it. -/
theorem C129_ingest_iff (i : Input) (hs : i.Sane) :
    (ingestFile i).Ok ↔ ∀ f ∈ i.fields,
      Importable i ingestFixed (lit "error" :: lit "bool" :: lit "nil" :: i.builtins 2) (f.name, f.path) ∧ f.name ∉ ingestLocals f.kind := by
  refine fields_ok_iff i hs ingestFixed i.fields (fun _ h => h) ingestLocals _ (by decide) (by decide) ?_ (fun x hx => (sane_claw hs true x hx).2.2)
  intro n hn
  simp only [List.mem_cons] at hn
  rcases hn with rfl | rfl | rfl | hn
  · decide
  · decide
  · decide
  · exact predeclared_ingest n (hs.builtins 2 n hn)

/-- Names that no generated file uses for anything else. -/
def taken : List Str :=
  unbindable ++ predeclared ++ (mainFixed ++ iterFixed true ++ ingestFixed).map (·.1) ++
  lits ["x", "s", "ctx", "raw", "l", "index", "values", "list", "items", "r", "i", "yield", "opts", "v", "tok", "ts", "ok", "listTok",
    "enumsList", "itemTok", "peekTok"]

theorem taken_locals : ∀ k, (∀ n ∈ mainLocals k, n ∈ taken) ∧ (∀ n ∈ iterLocals k, n ∈ taken) ∧ ∀ n ∈ ingestLocals k, n ∈ taken := by
  intro k; cases k <;> decide

/-- **C129 (a)** If the name of the package is neither a keyword nor `main`, all imports have the names of their packages, and these are not used for
anything else in generated code, the three files are accepted, whatever the fields are. Missing for the full statement: renamed imports
and packages of other names (`C129_renamed`, `C129_fixed`, `C129_local`, `C129_keyword`). -/
theorem C129_compiles_partial (i : Input) (hs : i.Sane) (hpkg : i.pkg ∉ lit "main" :: keywords)
    (h : ∀ x ∈ i.imports, x.1 = i.goName x.2 ∧ x.1 ∉ taken) : i.Compiles := by
  have hb : ∀ n, ∀ b ∈ i.builtins n, b ∈ taken := by
    intro n b hb
    have := hs.builtins n b hb
    simp only [taken, List.mem_append]; exact .inl (.inl (.inr this))
  have hf : ∀ n ∈ (mainFixed ++ iterFixed true ++ ingestFixed).map (·.1), n ∈ taken := by
    intro n hn; simp only [taken, List.mem_append] at hn ⊢; exact .inl (.inr (by simpa using hn))
  have hmain : ∀ n ∈ mainFixed.map (·.1), n ∈ taken := fun n hn => hf n (by simp only [List.map_append, List.mem_append]; exact .inl (.inl hn))
  have hiter : ∀ b, ∀ n ∈ (iterFixed b).map (·.1), n ∈ taken := by
    intro b n hn
    refine hf n ?_
    simp only [List.map_append, List.mem_append]
    refine .inl (.inr ?_)
    cases b with
    | true => exact hn
    | false =>
      simp only [iterFixed, Bool.false_eq_true, if_false, List.append_nil] at hn
      simp only [iterFixed, if_true, List.map_append]
      exact List.mem_append_left _ hn
  have hingest : ∀ n ∈ ingestFixed.map (·.1), n ∈ taken := fun n hn => hf n (by simp only [List.map_append, List.mem_append]; exact .inr hn)
  have hun : ∀ n ∈ unbindable, n ∈ taken := fun n hn => by
    simp only [taken, List.mem_append]; exact .inl (.inl (.inl hn))
  refine ⟨hpkg, ?_, ?_, ?_⟩
  · rw [C129_main_iff i hs]
    refine ⟨fun x hx => ⟨(h x hx).1, fun hn => (h x hx).2 (hun _ hn), fun hn => (h x hx).2 (hmain _ hn), fun hn => (h x hx).2 ?_⟩,
      fun f hf hl => (h _ (hs.fields f hf)).2 ((taken_locals f.kind).1 _ hl)⟩
    rcases List.mem_cons.1 hn with e | hn
    · rw [e]; decide
    · exact hb 0 _ hn
  · rw [C129_iter_iff i hs]
    intro f hf _
    have := h _ (hs.fields f hf)
    exact ⟨⟨this.1, fun hn => this.2 (hun _ hn), fun hn => this.2 (hiter _ _ hn), fun hn => this.2 (hb 1 _ hn)⟩, fun hl => this.2 ((taken_locals f.kind).2.1 _ hl)⟩
  · rw [C129_ingest_iff i hs]
    intro f hf
    have := h _ (hs.fields f hf)
    refine ⟨⟨this.1, fun hn => this.2 (hun _ hn), fun hn => this.2 (hingest _ hn), fun hn => this.2 ?_⟩, fun hl => this.2 ((taken_locals f.kind).2.2 _ hl)⟩
    simp only [List.mem_cons] at hn ⊢
    rcases hn with e | e | e | hn
    · rw [e]; show lit _ ∈ taken; decide
    · rw [e]; show lit _ ∈ taken; decide
    · rw [e]; show lit _ ∈ taken; decide
    · exact hb 2 _ hn

/-! ### Where it fails -/

theorem unbindable_valid : ∀ k ∈ unbindable, Claw.Mod.validPackage Claw.Mod.ascii k = .ok () := by decide

/-- **C129 is violated** A schema with an import that is renamed does not compile: the rename does not reach the generated Go files. -/
theorem C129_renamed (i : Input) (hs : i.Sane) (n p : Str) (hi : (n, p) ∈ i.imports) (hn : n ≠ i.goName p) : ¬ i.Compiles := by
  intro h
  exact hn (((C129_main_iff i hs).1 h.main).1 _ hi).1

/-- **C129 is violated** Nor does a schema that imports a package with the name of a package that generated code imports, or `string`. -/
theorem C129_fixed (i : Input) (hs : i.Sane) (n p : Str) (hi : (n, p) ∈ i.imports)
    (hn : n ∈ lits ["context", "io", "bytes", "fmt", "mapping", "reflect", "runtime", "segment", "field", "string"]) : ¬ i.Compiles := by
  intro h
  obtain ⟨_, _, h1, h2⟩ := ((C129_main_iff i hs).1 h.main).1 _ hi
  simp only [lits, List.map_cons, List.map_nil, List.mem_cons, List.not_mem_nil, or_false] at hn
  simp only at h1 h2
  rcases hn with rfl | rfl | rfl | rfl | rfl | rfl | rfl | rfl | rfl | rfl
  all_goals first
    | exact h1 (by decide)
    | exact h2 (by simp)

theorem variables_in (k : Kind) : ∀ n ∈ variables k, n ∈ mainLocals k ∨ n ∈ ingestLocals k ∨ (k.isEnum = true ∧ n ∈ iterLocals k) := by
  cases k <;> decide

/-- **C129 is violated** Nor does one that has a field with a type of a package with the name of a variable of generated code: `x`, `tok`,
`ok` and so on. -/
theorem C129_local (i : Input) (hs : i.Sane) (f : Ext) (hf : f ∈ i.fields) (hn : f.name ∈ variables f.kind) : ¬ i.Compiles := by
  intro h
  rcases variables_in f.kind f.name hn with hn | hn | ⟨hk, hn⟩
  · exact ((C129_main_iff i hs).1 h.main).2 f hf hn
  · exact ((C129_ingest_iff i hs).1 h.ingest f hf).2 hn
  · exact ((C129_iter_iff i hs).1 h.iter f hf hk).2 hn

/-- **C129 is violated** Nor does a package whose name is a keyword of Go or `main`, though all of these are valid names of
packages; nor one that imports such a package, or one with the name `init`. -/
theorem C129_keyword (i : Input) (hs : i.Sane) (n : Str) (hn : n ∈ unbindable) :
    Claw.Mod.validPackage Claw.Mod.ascii n = .ok () ∧ (i.pkg = n → n ≠ lit "init" → ¬ i.Compiles) ∧
      ∀ p, (n, p) ∈ i.imports → ¬ i.Compiles := by
  refine ⟨?_, ?_, fun p hp h => (((C129_main_iff i hs).1 h.main).1 _ hp).2.1 hn⟩
  · exact unbindable_valid n hn
  · rintro rfl hni h
    simp only [unbindable, List.mem_cons] at hn
    refine h.clause ?_
    rw [List.mem_cons]
    rcases hn with hn | hn | hn
    · exact absurd hn hni
    · exact .inl hn
    · exact .inr hn


/-! ### Cases -/

/-- A schema with two imports and fields of all kinds. -/
def demo (n1 : String) : Input where
  pkg := lit "p"
  imports := [(lit n1, lit "a.b/one"), (lit "two", lit "a.b/two")]
  fields := [⟨lit n1, lit "a.b/one", .enum⟩, ⟨lit "two", lit "a.b/two", .structs⟩, ⟨lit n1, lit "a.b/one", .struct⟩,
    ⟨lit "two", lit "a.b/two", .enums⟩]
  hasFields := true
  goName p := if p = lit "a.b/one" then lit "one" else lit "two"
  builtins _ := lits ["uint8", "bool"]

theorem demo_sane : (demo "one").Sane := ⟨by decide, by decide, by decide, fun _ => (show ∀ b ∈ lits ["uint8", "bool"], b ∈ predeclared by decide)⟩

example : (demo "one").Compiles := C129_compiles_partial _ demo_sane (by decide) (by decide)

example : ¬ (demo "uno").Compiles :=
  C129_renamed _ ⟨by decide, by decide, by decide, fun _ => (show ∀ b ∈ lits ["uint8", "bool"], b ∈ predeclared by decide)⟩ (lit "uno") (lit "a.b/one") (by decide) (by decide)

/-- A schema that imports one package and has a field of its type. -/
def demoNamed (n : String) (k : Kind) : Input where
  pkg := lit "p"
  imports := [(lit n, lit "a.b/c")]
  fields := [⟨lit n, lit "a.b/c", k⟩]
  hasFields := true
  goName _ := lit n
  builtins _ := []

theorem demoNamed_sane (n : String) (k : Kind) : (demoNamed n k).Sane where
  names := by simp [demoNamed]
  fields := by simp [demoNamed]
  claw := by
    intro x hx
    simp only [demoNamed, List.mem_singleton] at hx
    subst hx
    exact (by decide : lit "a.b/c" ∉ (mainFixed ++ iterFixed true ++ ingestFixed).map (·.2))
  builtins := by simp [demoNamed]

example : ¬ (demoNamed "context" .struct).Compiles := C129_fixed _ (demoNamed_sane _ _) (lit "context") (lit "a.b/c") (by decide) (by decide)
example : ¬ (demoNamed "list" .structs).Compiles := C129_local _ (demoNamed_sane _ _) ⟨lit "list", lit "a.b/c", .structs⟩ (by decide) (by decide)
example : ¬ (demoNamed "yield" .enum).Compiles := C129_local _ (demoNamed_sane _ _) ⟨lit "yield", lit "a.b/c", .enum⟩ (by decide) (by decide)
example : ¬ (demoNamed "type" .enum).Compiles :=
  (C129_keyword _ (demoNamed_sane _ _) (lit "type") (by decide)).2.2 (lit "a.b/c") (by decide)

/-- An import named `math` does no harm unless the package has an enum that is used. -/
def demoMath (k : Kind) : Input where
  pkg := lit "p"
  imports := [(lit "math", lit "a.b/math")]
  fields := [⟨lit "math", lit "a.b/math", k⟩]
  hasFields := true
  goName _ := lit "math"
  builtins _ := []

theorem demoMath_sane (k : Kind) : (demoMath k).Sane := by
  cases k <;> exact ⟨by decide, by decide, by decide, fun _ => (show ∀ b ∈ ([] : List Str), b ∈ predeclared by decide)⟩

example : (demoMath .struct).Compiles := by
  refine ⟨by decide, ?_, ?_, ?_⟩
  · rw [C129_main_iff _ (demoMath_sane _)]; unfold Importable; decide
  · rw [C129_iter_iff _ (demoMath_sane _)]; unfold Importable; decide
  · rw [C129_ingest_iff _ (demoMath_sane _)]; unfold Importable; decide

example : ¬ (demoMath .enum).Compiles := by
  intro h
  have := (C129_iter_iff _ (demoMath_sane .enum)).1 h.iter
  revert this; unfold Importable; decide

end Claw.GenImports
