import Verif.Lemmas.Descr
import Verif.Lemmas.Externals

/-!
# Reflection describes the schema (C139)
-/

namespace Claw.Descr

open Claw.Idl
open Claw.GenGo (mapOut isExternal)

variable {u : Uni} {imports : List Str} {ls : List Line} {file : File} {pkg path : Str} {names : List Str}
  {ex : Str → Out (List (Str × Ident))} {p : PkgD}

theorem sorted_structs (h : parseFile u imports ls = .ok file) :
    ((sortBy (fun a b => strLe a.1 b.1) file.structs).map (·.1)).Nodup := by
  have hn := (List.nodup_append.1 (C70_distinct_names_partial h).1).1
  exact ((sortBy_perm file.structs _).map _).nodup_iff.2 hn

theorem sorted_enums (h : parseFile u imports ls = .ok file) :
    ((sortBy (fun a b => strLe a.name b.name) file.enums).map (·.name)).Nodup := by
  have hn := (List.nodup_append.1 (C70_distinct_names_partial h).1).2.1
  exact ((sortBy_perm file.enums _).map _).nodup_iff.2 hn

theorem sort_ne {α : Type} {le : α → α → Bool} {l : List α} (h : l ≠ []) : sortBy le l ≠ [] := by
  intro e
  have := (sortBy_perm l le).length_eq
  rw [e] at this
  exact h (List.length_eq_zero_iff.1 this.symm)

/-- All there is to know of the list of structs. -/
theorem structs_of (h : parseFile u imports ls = .ok file) (hd : describe pkg path names ex file = .ok p) (hne : file.structs ≠ []) :
    ∃ ss, p.structs = some ss ∧ ss.map (·.name) = (sortBy (fun a b => strLe a.1 b.1) file.structs).map (·.1) ∧
      ∀ s ∈ file.structs, ∃ d ∈ ss, structD pkg path file.ctx.idents ex s = .ok d := by
  obtain ⟨gs, ss, rfl, _, h2⟩ := describe_ok hd
  have hm := GenGo.mapOut_map (g := fun s : Str × List Field => s.1) (g' := fun d : StructD => d.name) (fun a b e => (structD_ok e).1) h2
  have hss : ss ≠ [] := by
    rintro rfl
    have := sort_ne (le := fun a b => strLe a.1 b.1) hne
    simp at hm
    exact this hm
  refine ⟨ss, unlessEmpty_some hss, hm, fun s hs => ?_⟩
  obtain ⟨d, h3, h4⟩ := (GenGo.mapOut_ok h2).2 s ((sortBy_perm _ _).mem_iff.2 hs)
  exact ⟨d, h3, h4⟩

/-- C139: the description of a package that has structs lists them all, by name and no others; each has the name and path of its package,
and as many fields as are declared. -/
theorem C139_structs (h : parseFile u imports ls = .ok file) (hd : describe pkg path names ex file = .ok p) (hne : file.structs ≠ []) :
    p.name = pkg ∧ p.path = path ∧ p.imports = names ∧
    p.structsLen = .ok file.structs.length ∧ (∀ n, n ∉ file.structs.map (·.1) → p.structByName n = .ok none) ∧
    ∀ s ∈ file.structs, ∃ d, p.structByName s.1 = .ok (some d) ∧ d.name = s.1 ∧ d.pkg = pkg ∧ d.path = path ∧ d.fields.length = s.2.length := by
  obtain ⟨ss, h1, h2, h3⟩ := structs_of h hd hne
  have hp : p.name = pkg ∧ p.path = path ∧ p.imports = names := by
    obtain ⟨gs, ss, rfl, _, _⟩ := describe_ok hd; exact ⟨rfl, rfl, rfl⟩
  have hnd := sorted_structs h
  rw [← h2] at hnd
  have hperm := (sortBy_perm file.structs (fun a b => strLe a.1 b.1)).map (·.1)
  refine ⟨hp.1, hp.2.1, hp.2.2, ?_, ?_, ?_⟩
  · have := congrArg List.length h2
    rw [hperm.length_eq] at this
    simp only [List.length_map] at this
    simp [PkgD.structsLen, ofList, h1, this]
  · intro n hn
    simp only [PkgD.structByName, ofList, h1]
    rw [find_none (fun d : StructD => d.name)]
    rw [h2]
    exact fun hm => hn (hperm.mem_iff.1 hm)
  · intro s hs
    obtain ⟨d, hd1, hd2⟩ := h3 s hs
    obtain ⟨k1, k2, k3, k4, _⟩ := structD_ok hd2
    refine ⟨d, ?_, k1, k2, k3, k4⟩
    simp only [PkgD.structByName, ofList, h1]
    rw [← k1, find_name (fun d : StructD => d.name) hnd hd1]

/-- C139: the description that a struct gives of itself is its own. -/
theorem C139_own (h : parseFile u imports ls = .ok file) (hd : describe pkg path names ex file = .ok p) {i : Nat} {s : Str × List Field}
    (hs : (sortBy (fun a b => strLe a.1 b.1) file.structs)[i]? = some s) : ∃ d, xxxDescr p i = .ok d ∧ p.structByName s.1 = .ok (some d) := by
  have hne : file.structs ≠ [] := by
    rintro e
    rw [e] at hs
    simp [sortBy] at hs
  obtain ⟨gs, ss, rfl, _, h2⟩ := describe_ok hd
  obtain ⟨_, k2⟩ := mapOut_get h2
  obtain ⟨d, h3, h4⟩ := k2 i s hs
  have hm := GenGo.mapOut_map (g := fun s : Str × List Field => s.1) (g' := fun d : StructD => d.name) (fun a b e => (structD_ok e).1) h2
  have hnd := sorted_structs h
  rw [← hm] at hnd
  have hss : ss ≠ [] := by rintro rfl; simp at h3
  refine ⟨d, by simp [xxxDescr, PkgD.structAt, ofList, unlessEmpty_some hss, index, h3], ?_⟩
  simp only [PkgD.structByName, ofList, unlessEmpty_some hss]
  rw [← (structD_ok h4).1, find_name (fun d : StructD => d.name) hnd (List.mem_of_getElem? h3)]

/-- The key and the value of a map, as written. -/
def keyOf : MapTy → FT
  | .scalar k _ => k
  | .anys k => k
  | .named k _ => k
  | .map k _ => k

def valueOf : MapTy → FT
  | .scalar _ v => v
  | .anys _ => .listAny
  | .named _ _ => .struct
  | .map _ _ => .map

/-- Not a map, and asking for the key or the value is an error of the caller. -/
def NoMap (d : FieldD) : Prop := d.isMap = false ∧ d.mapKey = .panic ∧ d.mapValue = .panic

theorem noMap {d : FieldD} (h : d.type ≠ .map) : NoMap d := by
  simp [NoMap, FieldD.isMap, FieldD.mapKey, FieldD.mapValue, h]

/-- All that the methods of a description can tell (interfaces.go 232-259) is the same, with the panics. -/
def Alike (x y : FieldD) : Prop :=
  x.name = y.name ∧ x.type = y.type ∧ x.num = y.num ∧ x.isEnum = y.isEnum ∧ x.isMap = y.isMap ∧ x.enumGroup = y.enumGroup ∧
  x.itemType = y.itemType ∧ x.mapKey = y.mapKey ∧ x.mapValue = y.mapValue

/-- The description says what was written. -/
def Says (ids : List (Str × Ident)) (d : FieldD) : Written → Prop
  | .scalar t => d.type = t ∧ d.isEnum = false ∧ NoMap d
  | .list t => d.type = listOf t ∧ d.isEnum = false ∧ NoMap d
  | .map t => d.isMap = true ∧ d.isEnum = false ∧ d.mapKey = .ok (keyOf t) ∧ d.mapValue = .ok (valueOf t)
  | .ref n l => meaning (assocGet n ids) l = some (d.type, d.isEnum) ∧ NoMap d ∧
      ((∃ size, assocGet n ids = some (.enum size)) → d.isEnum = true ∧ d.enumGroup = .ok ⟨none, n⟩) ∧
      (assocGet n ids = some .struct → l = true → d.itemType = .ok n)

theorem scalar_not_map {t : FT} (h : t.IsScalar) : t ≠ .map ∧ listOf t ≠ .map := by
  cases t <;> first | exact absurd rfl h | simp [listOf]

theorem says {ids : List (Str × Ident)} {f g : Field} {k : Nat} {fd : FieldD} {w : Written} (hid : assocGet [] ids ≠ some .struct)
    (hw : w.OK) (hp : w.Pre ids f) (hr : resolve ids ex f = .ok g) (hf : fieldD k g = .ok fd) : Says ids fd w := by
  obtain ⟨_, d2, _, d4, d5, d6, d7, _, d9⟩ := fieldD_ok hf
  obtain ⟨_, r2, _, r4⟩ := resolve_kept hr
  have hc := hp.resolve ex hw
  cases w with
  | scalar t =>
    obtain ⟨g', h1, h2, h3, h4, _⟩ := hc
    rw [hr] at h1; cases h1
    exact ⟨by rw [d2, h2], by rw [d4, h3], noMap (by rw [d2, h2]; exact (scalar_not_map hw).1)⟩
  | list t =>
    obtain ⟨g', h1, h2, h3, h4, _⟩ := hc
    rw [hr] at h1; cases h1
    exact ⟨by rw [d2, h2], by rw [d4, h3], noMap (by rw [d2, h2]; exact (scalar_not_map hw).2)⟩
  | map t =>
    obtain ⟨g', h1, h2, h3, h4, _⟩ := hc
    rw [hr] at h1; cases h1
    refine ⟨by simp [FieldD.isMap, d2, h2], by rw [d4, h3], ?_, ?_⟩
    · simp only [FieldD.mapKey, d2, h2, if_true, d5, keyValue, h4]
      cases t <;> rfl
    · simp only [FieldD.mapValue, d2, h2, if_true, d6, keyValue, h4]
      cases t <;> rfl
  | ref n l =>
    obtain ⟨p1, p2, p3, p4⟩ := hp
    simp only [Written.compiled] at hc
    cases hm : meaning (assocGet n ids) l with
    | none => rw [hm] at hc; simp only [Option.map_none] at hc; rw [hr] at hc; cases hc
    | some r =>
      obtain ⟨t, e⟩ := r
      rw [hm] at hc
      simp only [Option.map_some] at hc
      obtain ⟨g', h1, h2, h3, h4, _⟩ := hc
      rw [hr] at h1; cases h1
      have hn : g.identName = n := by rw [r2, p1]
      have hext : isExternal g = false := by simp [isExternal, hn, hw.2.1]
      have href : ref g = .ok ⟨none, n⟩ := by simp [ref, hext, hn]
      refine ⟨by rw [hm, d2, d4, h2, h3], ?_, ?_, ?_⟩
      · refine noMap ?_
        rw [d2, h2]
        intro ht
        subst ht
        unfold meaning at hm
        split at hm <;> simp at hm
      · rintro ⟨size, hs⟩
        have he : e = true := by
          rw [hs] at hm
          unfold meaning at hm
          split at hm <;> simp_all
        obtain ⟨r, q1, q2, _⟩ := d7 (by rw [h3, he])
        rw [href] at q1; cases q1
        exact ⟨by rw [d4, h3, he], by simp [FieldD.enumGroup, q2]⟩
      · intro hs hl
        subst hl
        rw [hs] at hm
        simp only [meaning, Option.some.injEq, Prod.mk.injEq] at hm
        have hne : g.identName ≠ [] := by
          rw [hn]
          rintro rfl
          exact hid hs
        obtain ⟨r, q1, q2⟩ := d9 (by rw [h3, ← hm.2]) hne
        rw [href] at q1; cases q1
        simp [FieldD.itemType, d2, h2, ← hm.1, q2]

/-- C139, what is missing being types that are not well formed and those of other packages: of each struct of an accepted schema each field
is found at its number, and by its name, and the description says what type was written. -/
theorem C139_fields_partial (hu : ¬ u.Ident []) (h : parseFile u imports ls = .ok file) (hd : describe pkg path names ex file = .ok p) :
    ∀ s ∈ file.structs, ∃ d, p.structByName s.1 = .ok (some d) ∧
      (∀ n, n ∉ s.2.map (·.name) → (∀ b rest, n = b :: rest → lowerByte b = false) → n ≠ [] → d.fieldByName n = .ok none) ∧
      ∀ f ∈ s.2, ∃ l ∈ ls, ∃ ty num i fd, l.items[0]? = some f.name ∧ l.items[1]? = some ty ∧ l.items[2]? = some num ∧ atNumber num = .ok i ∧
        d.fieldAt (i % 65536).toNat = .ok fd ∧ fd.name = f.name ∧ fd.num = (i % 65536).toNat ∧
        ((s.2.map (·.name)).Nodup → f.name ≠ [] → (∀ b rest, f.name = b :: rest → lowerByte b = false) → d.fieldByName f.name = .ok (some fd)) ∧
        ∀ w : Written, w.OK → w.text = ty → Says file.ctx.idents fd w := by
  intro s hs
  have hne : file.structs ≠ [] := by rintro e; rw [e] at hs; cases hs
  obtain ⟨ss, h1, h2, h3⟩ := structs_of h hd hne
  have hnd := sorted_structs h
  rw [← h2] at hnd
  obtain ⟨d, hd1, hd2⟩ := h3 s hs
  obtain ⟨k1, _, _, k4, k5⟩ := structD_ok hd2
  have hfn : d.fields.map (·.name) = s.2.map (·.name) := by
    apply List.ext_getElem?
    intro k
    simp only [List.getElem?_map]
    cases hk : s.2[k]? with
    | none =>
      have : d.fields[k]? = none := by rw [List.getElem?_eq_none_iff] at hk ⊢; omega
      rw [this]; rfl
    | some f =>
      obtain ⟨g, fd, q1, q2, q3⟩ := k5 k f hk
      rw [q3]
      simp only [Option.map_some, Option.some.injEq]
      rw [(fieldD_ok q2).1, (resolve_kept q1).1]
  refine ⟨d, ?_, ?_, ?_⟩
  · simp only [PkgD.structByName, ofList, h1]
    rw [← k1, find_name (fun d : StructD => d.name) hnd hd1]
  · intro n hn hb hne
    cases n with
    | nil => exact absurd rfl hne
    | cons b rest =>
      simp only [StructD.fieldByName, hb b rest rfl]
      rw [find_none (fun d : FieldD => d.name) (by rw [hfn]; exact hn)]
      rfl
  · intro f hf
    obtain ⟨l, hl, ty, num, i, a1, a2, a3, a4, a5, a6, _⟩ := (parseFile_inv h).fields s hs f hf
    obtain ⟨c, l', c', r, hps⟩ := file_struct h hs
    obtain ⟨k, hk, hfk⟩ := List.getElem_of_mem hf
    have hidx : f.index = k := by rw [← hfk]; exact (C47_accepted_in_order hps).2 k hk
    have hnum : (i % 65536).toNat = k := by rw [← hidx, a5]; rfl
    obtain ⟨g, fd, q1, q2, q3⟩ := k5 k f (by rw [← hfk]; exact List.getElem?_eq_getElem hk)
    obtain ⟨d1, _, d3, _⟩ := fieldD_ok q2
    have hname : fd.name = f.name := by rw [d1, (resolve_kept q1).1]
    refine ⟨l, hl, ty, num, i, fd, a1, a2, a3, a4, ?_, hname, by rw [d3, hnum], ?_, ?_⟩
    · simp [StructD.fieldAt, index, hnum, q3]
    · intro hdist hne hb
      cases hn : f.name with
      | nil => exact absurd hn hne
      | cons b rest =>
        simp only [StructD.fieldByName, hb b rest hn]
        rw [← hn, ← hname, find_name (fun d : FieldD => d.name) (by rw [hfn]; exact hdist) (List.mem_of_getElem? q3)]
        rfl
    · intro w hw ht
      refine says (ex := ex) ?_ hw (a6 w hw ht) q1 q2
      intro he
      have hm := (C69_identifiers h []).1.1 he
      exact hu ((C70_distinct_names_partial h).2.1 [] (List.mem_append_left _ hm))

theorem find_number : ∀ {l : List EnumD} {x : EnumD}, (l.map (·.number)).Nodup → x ∈ l → l.find? (fun y => y.number = x.number) = some x
  | a :: l, x, hn, hx => by
    simp only [List.map_cons, List.nodup_cons, List.mem_map, not_exists, not_and] at hn
    rcases List.mem_cons.1 hx with rfl | hx
    · simp
    · have : a.number ≠ x.number := fun e => hn.1 x hx e.symm
      rw [List.find?_cons_of_neg (by simpa using this)]
      exact find_number hn.2 hx

/-- C139: each enum of a schema is found by its name, with its size and as many enumerators as are declared; each of them is found by its
name and by its number, and no others. -/
theorem C139_enums (h : parseFile u imports ls = .ok file) (hd : describe pkg path names ex file = .ok p) (hne : file.enums ≠ []) :
    p.enumsLen = .ok file.enums.length ∧ (∀ n, n ∉ file.enums.map (·.name) → p.enumByName n = .ok none) ∧
    ∀ e ∈ file.enums, ∃ g, p.enumByName e.name = .ok (some g) ∧ g.name = e.name ∧ g.size = e.size ∧ g.len = e.names.length ∧
      (∀ q ∈ e.names, g.byName q.1 = some ⟨q.1, q.2.value, e.size⟩ ∧ g.byValue q.2.value = some ⟨q.1, q.2.value, e.size⟩ ∧
        g.at q.2.value = .ok ⟨q.1, q.2.value, e.size⟩) ∧
      (∀ n, n ∉ e.names.map (·.1) → g.byName n = none) ∧ ∀ v, v ∉ e.names.map (·.2.value) → g.byValue v = none := by
  obtain ⟨gs, ss, rfl, h1, _⟩ := describe_ok hd
  have hm := GenGo.mapOut_map (g := fun e : Enum => e.name) (g' := fun d : Group => d.name)
    (fun a b e => by obtain ⟨vs, _, rfl⟩ := group_ok e; rfl) h1
  have hnd := sorted_enums h
  rw [← hm] at hnd
  have hperm := (sortBy_perm file.enums (fun a b => strLe a.name b.name)).map (·.name)
  have hgs : gs ≠ [] := by
    rintro rfl
    simp at hm
    exact sort_ne hne hm
  refine ⟨?_, ?_, ?_⟩
  · have := congrArg List.length hm
    rw [hperm.length_eq] at this
    simp only [List.length_map] at this
    simp [PkgD.enumsLen, ofList, unlessEmpty_some hgs, this]
  · intro n hn
    simp only [PkgD.enumByName, ofList, unlessEmpty_some hgs]
    rw [find_none (fun d : Group => d.name)]
    rw [hm]
    exact fun hx => hn (hperm.mem_iff.1 hx)
  · intro e he
    obtain ⟨g, hg1, hg2⟩ := (GenGo.mapOut_ok h1).2 e ((sortBy_perm _ _).mem_iff.2 he)
    obtain ⟨vs, hv, rfl⟩ := group_ok hg2
    obtain ⟨l, r, hpe⟩ := file_enum h he
    obtain ⟨_, hn1, hn2, hn3, hn4, hn5⟩ := C48_distinct hpe
    obtain ⟨hv1, hv2⟩ := (C48_renders_iff_dense_partial hpe (List.Perm.refl _)).2.2.1 vs hv
    rw [← hn3] at hv1
    have hnm : (vs.map (·.name)).Perm (e.names.map (·.1)) := by
      refine (hv1.map _).trans ?_
      rw [List.map_map]
      refine List.Perm.of_eq (List.map_congr_left fun q hq => ?_)
      exact (hn4 q hq).1.symm
    have hval : (vs.map (·.value)).Perm (e.names.map (·.2.value)) := by
      refine (hv1.map _).trans ?_
      rw [List.map_map]
      exact List.Perm.of_eq rfl
    refine ⟨⟨e.name, e.names.length, e.size, vs.map fun v => ⟨v.name, v.value, e.size⟩⟩, ?_, rfl, rfl, rfl, ?_, ?_, ?_⟩
    · simp only [PkgD.enumByName, ofList, unlessEmpty_some hgs]
      have := find_name (fun d : Group => d.name) hnd hg1
      simp only at this
      rw [this]
    · intro q hq
      have hmem : q.2 ∈ vs := hv1.mem_iff.2 (List.mem_map.2 ⟨q, hq, rfl⟩)
      have hx : (⟨q.1, q.2.value, e.size⟩ : EnumD) ∈ vs.map fun v => (⟨v.name, v.value, e.size⟩ : EnumD) :=
        List.mem_map.2 ⟨q.2, hmem, by rw [← (hn4 q hq).1]⟩
      refine ⟨?_, ?_, ?_⟩
      · have := find_name (fun d : EnumD => d.name) (l := vs.map fun v => (⟨v.name, v.value, e.size⟩ : EnumD)) (x := ⟨q.1, q.2.value, e.size⟩)
          (by rw [List.map_map]; exact hnm.nodup_iff.2 hn1) hx
        exact this
      · have := find_number (l := vs.map fun v => (⟨v.name, v.value, e.size⟩ : EnumD)) (x := ⟨q.1, q.2.value, e.size⟩)
          (by rw [List.map_map]; show (vs.map (·.value)).Nodup; rw [hv2]; exact List.nodup_range) hx
        exact this
      · obtain ⟨k, hk, hvk⟩ := List.getElem_of_mem hmem
        have hkv : q.2.value = k := by
          have h5 : (vs.map (·.value))[k]? = some q.2.value := by simp [hk, hvk]
          rw [hv2] at h5
          rw [List.getElem?_eq_some_iff] at h5
          obtain ⟨h6, h7⟩ := h5
          simp at h7
          exact h7.symm
        have h8 : vs[q.2.value]? = some q.2 := by rw [hkv, List.getElem?_eq_getElem hk, hvk]
        simp only [Group.at, index, List.getElem?_map, h8, Option.map_some, ← (hn4 q hq).1]
    · intro n hn
      refine find_none (fun d : EnumD => d.name) ?_
      rw [List.map_map]
      exact fun hx => hn (hnm.mem_iff.1 hx)
    · intro v hv
      simp only [Group.byValue]
      rw [List.find?_eq_none]
      intro x hx hf
      simp only [decide_eq_true_eq] at hf
      apply hv
      refine hval.mem_iff.1 ?_
      obtain ⟨y, hy, rfl⟩ := List.mem_map.1 hx
      exact List.mem_map.2 ⟨y, hy, hf⟩

/-- C139: a field of an enum of an imported package, or a list of them, has the group of that package, and a list of structs of an imported
package has the name of the struct. -/
theorem C139_imported {i : Nat} {f : Field} {d : FieldD} {a b : Str} (ha : (46 : UInt8) ∉ a) (hb : (46 : UInt8) ∉ b)
    (hf : f.identName = a ++ 46 :: b) (h : fieldD i f = .ok d) :
    (f.isEnum = true → d.isEnum = true ∧ d.enumGroup = .ok ⟨some a, b⟩) ∧
    (f.isEnum = false → f.type = .listStructs → d.itemType = .ok b) := by
  have href : ref f = .ok ⟨some a, b⟩ := by simp [ref, isExternal, hf, Claw.Externals.splitDot_two ha hb]
  obtain ⟨_, d2, _, d4, _, _, d7, _, d9⟩ := fieldD_ok h
  constructor
  · intro he
    obtain ⟨r, q1, q2, _⟩ := d7 he
    rw [href] at q1; cases q1
    exact ⟨by rw [d4, he], by simp [FieldD.enumGroup, q2]⟩
  · intro he ht
    obtain ⟨r, q1, q2⟩ := d9 he (by simp [hf])
    rw [href] at q1; cases q1
    simp [FieldD.itemType, d2, ht, q2]

/-! ### Where it fails -/

/-- C139 is violated: of a schema without enums no question about its enums is answered, and of one without structs none about its
structs. -/
theorem C139_none (hd : describe pkg path names ex file = .ok p) :
    (file.enums = [] → p.enumsLen = .panic ∧ (∀ n, p.enumByName n = .panic) ∧ ∀ i, p.enumAt i = .panic) ∧
    (file.structs = [] → p.structsLen = .panic ∧ (∀ n, p.structByName n = .panic) ∧ ∀ i, p.structAt i = .panic) := by
  obtain ⟨gs, ss, rfl, h1, h2⟩ := describe_ok hd
  constructor
  · intro he
    rw [he] at h1
    simp only [sortBy, mapOut, Out.ok.injEq] at h1
    subst h1
    exact ⟨rfl, fun _ => rfl, fun _ => rfl⟩
  · intro he
    rw [he] at h2
    simp only [sortBy, mapOut, Out.ok.injEq] at h2
    subst h2
    exact ⟨rfl, fun _ => rfl, fun _ => rfl⟩

/-- C139 is violated: asking a struct for a field panics, whatever its fields are, if the name asked for is empty, begins with a lower-case
letter, or begins with a byte from 223 on other than 247, as every name does that begins with a character from U+07C0 on. -/
theorem C139_name_panics (s : StructD) : s.fieldByName [] = .panic ∧
    ∀ b rest, (97 ≤ b ∧ b ≤ 122) ∨ (223 ≤ b ∧ b ≠ 247) → s.fieldByName (b :: rest) = .panic := by
  refine ⟨rfl, fun b rest hb => ?_⟩
  have : lowerByte b = true := by
    simp only [lowerByte, decide_eq_true_eq]
    rcases hb with hb | hb
    · exact Or.inl hb
    · exact Or.inr (Or.inr hb)
  simp [StructD.fieldByName, this]

/-- C139 is violated: the descriptions of two fields do not differ though one is a struct of one type and the other of another; nor do those
of maps whose values are structs of different types or maps of different types; nor those of lists of structs with the same name from
different packages. -/
theorem C139_not_told (name : Str) (i : Nat) (a b : Str) (ha : (46 : UInt8) ∉ a) (hb : (46 : UInt8) ∉ b) (k : FT) (m m' : MapInfo) :
    (∃ x y, fieldD i ⟨[], name, i, .struct, false, false, a, false, none⟩ = .ok x ∧
      fieldD i ⟨[], name, i, .struct, false, false, b, false, none⟩ = .ok y ∧ Alike x y) ∧
    (∃ x y, fieldD i ⟨[], name, i, .map, false, false, [], false, some (.flat k .struct a)⟩ = .ok x ∧
      fieldD i ⟨[], name, i, .map, false, false, [], false, some (.flat k .struct b)⟩ = .ok y ∧ Alike x y) ∧
    (∃ x y, fieldD i ⟨[], name, i, .map, false, false, [], false, some (.nested k m)⟩ = .ok x ∧
      fieldD i ⟨[], name, i, .map, false, false, [], false, some (.nested k m')⟩ = .ok y ∧ Alike x y) ∧
    (∃ x y, fieldD i ⟨[], name, i, .listStructs, true, false, a ++ 46 :: b, false, none⟩ = .ok x ∧
      fieldD i ⟨[], name, i, .listStructs, true, false, b ++ 46 :: b, false, none⟩ = .ok y ∧ Alike x y) := by
  have loc : ∀ n : Str, (46 : UInt8) ∉ n → ∃ sd, fieldD i ⟨[], name, i, .struct, false, false, n, false, none⟩ =
      .ok ⟨name, .struct, i, false, .unknown, .unknown, sd, none⟩ := by
    intro n hn
    by_cases he : n = []
    · exact ⟨none, by simp [fieldD, he, keyValue]⟩
    · exact ⟨some ⟨none, n⟩, by simp [fieldD, he, keyValue, ref, isExternal, hn]⟩
  refine ⟨?_, ⟨_, _, rfl, rfl, ⟨rfl, rfl, rfl, rfl, rfl, rfl, rfl, rfl, rfl⟩⟩, ⟨_, _, rfl, rfl, ⟨rfl, rfl, rfl, rfl, rfl, rfl, rfl, rfl, rfl⟩⟩, ?_⟩
  · obtain ⟨s1, h1⟩ := loc a ha
    obtain ⟨s2, h2⟩ := loc b hb
    exact ⟨_, _, h1, h2, ⟨rfl, rfl, rfl, rfl, rfl, rfl, rfl, rfl, rfl⟩⟩
  · have ext : ∀ n : Str, (46 : UInt8) ∉ n → fieldD i ⟨[], name, i, .listStructs, true, false, n ++ 46 :: b, false, none⟩ =
        .ok ⟨name, .listStructs, i, false, .unknown, .unknown, some ⟨some n, b⟩, none⟩ := by
      intro n hn
      have hs : splitDot (n ++ 46 :: b) = [n, b] := Claw.Externals.splitDot_two hn hb
      simp [fieldD, keyValue, ref, isExternal, hs]
    exact ⟨_, _, ext a ha, ext b hb, ⟨rfl, rfl, rfl, rfl, rfl, rfl, rfl, rfl, rfl⟩⟩

/-! ### Cases -/

/-- The description of the schema of `Props/IdlTypes`, which has two structs and an enum, with names used before they are declared. -/
def forwardDescr : Out PkgD :=
  (parseFile ascii [] forwardFile).bind fun file => describe (lit "cars") (lit "host/cars") [] (fun _ => .err) file

/-- What is asked of it. -/
def ask {α : Type} (o : Out PkgD) (q : PkgD → Out α) : Out α := o.bind q

def askField {α : Type} (o : Out PkgD) (s f : Str) (q : FieldD → Out α) : Out α :=
  o.bind fun p => (p.structByName s).bind fun d => match d with
    | some d => (d.fieldByName f).bind fun fd => match fd with
      | some fd => q fd
      | none => .err
    | none => .err

example : ask forwardDescr PkgD.structsLen = .ok 2 ∧ ask forwardDescr PkgD.enumsLen = .ok 1 ∧
    ask forwardDescr (fun p => (p.structAt 0).bind fun d => .ok (d.name, d.fields.map fun f => (f.name, f.num))) =
      .ok (lit "A", [(lit "E", 0), (lit "Next", 1), (lit "Bs", 2), (lit "M", 3)]) ∧
    askField forwardDescr (lit "A") (lit "E") FieldD.enumGroup = .ok ⟨none, lit "Color"⟩ ∧
    askField forwardDescr (lit "A") (lit "Bs") FieldD.itemType = .ok (lit "B") ∧
    askField forwardDescr (lit "A") (lit "M") FieldD.mapKey = .ok .string ∧
    askField forwardDescr (lit "A") (lit "M") FieldD.mapValue = .ok .map ∧
    ask forwardDescr (fun p => p.enumByName (lit "Color")) =
      .ok (some ⟨lit "Color", 1, 16, [⟨lit "Red", 0, 16⟩]⟩) := by decide +kernel

/-- There is no empty identifier. -/
example : ¬ ascii.Ident [] := by
  rintro ⟨r, rs, h, _⟩
  cases h

/-- Characters beyond ASCII: of the name of a field that is written with the bytes of U+540D. -/
def han : Uni := { ascii with runes := fun s => if s = [0xE5, 0x90, 0x8D] then [0x540D] else ascii.runes s, isLetter := fun r => ascii.isLetter r || r == 0x540D }

def hanFile : List Line :=
  [⟨[lit "Struct", lit "T", lit "{", lit "\n"], false⟩,
   ⟨[[0xE5, 0x90, 0x8D], lit "bool", lit "@0", lit "\n"], false⟩,
   ⟨[lit "}", []], true⟩]

def hanDescr : Out PkgD :=
  (parseFile han [] hanFile).bind fun file => describe (lit "t") (lit "host/t") [] (fun _ => .err) file

/-- The schema is accepted, the field is there, and asking for it by its name panics; so does asking for the number of enums. -/
example : ask hanDescr (fun p => (p.structByName (lit "T")).bind fun d => .ok (d.map fun d => d.fields.map (·.name))) =
      .ok (some [[0xE5, 0x90, 0x8D]]) ∧
    ask hanDescr (fun p => (p.structByName (lit "T")).bind fun d => match d with
      | some d => d.fieldByName [0xE5, 0x90, 0x8D]
      | none => .err) = .panic ∧
    ask hanDescr PkgD.enumsLen = .panic := by decide +kernel

end Claw.Descr
