import Verif.Lemmas.IdlTypes
import Verif.Props.Idl

/-!
# C69, C70: the types of fields, and names
-/

namespace Claw.Idl

set_option linter.unusedSimpArgs false

/-! ## C69 -/

/-- C69, for types that are well formed: in an accepted file, whatever its text, every field of every struct comes from a
line that gives its name, its type and its number. When the type is a scalar, a list of scalars, a map of any depth, or the
name of a struct or enum of this file or a list of such, what is compiled is what the type means **given all the identifiers
of the file**: it does not matter whether they are declared before or after. A field whose type is a name that is not
declared makes compilation fail. Missing: names of imported packages; names within maps, which are not looked up
(`C69_map_values_not_checked`); malformed types, some of which are accepted (`C69_malformed_types_accepted`). -/
theorem C69_types_as_written_partial {u : Uni} {imports : List Str} {ls : List Line} {file : File}
    (h : parseFile u imports ls = .ok file) (ex : Str → Out (List (Str × Ident))) :
    ∀ p ∈ file.structs, ∀ f ∈ p.2, ∃ l ∈ ls, ∃ ty num, l.items[0]? = some f.name ∧ l.items[1]? = some ty ∧ l.items[2]? = some num ∧
      (∃ i, atNumber num = .ok i ∧ f.index = (i % 65536).toNat) ∧
      ∀ w : Written, w.OK → w.text = ty →
        match w.compiled file.ctx.idents with
        | some (t, e, m) => ∃ g, resolve file.ctx.idents ex f = .ok g ∧ g.type = t ∧ g.isEnum = e ∧ g.map = m ∧
            g.name = f.name ∧ g.index = f.index
        | none => resolve file.ctx.idents ex f = .err := by
  intro p hp f hf
  obtain ⟨l, hl, ty, num, i, h1, h2, h3, h4, h5, h6, _⟩ := (parseFile_inv h).fields p hp f hf
  exact ⟨l, hl, ty, num, h1, h2, h3, ⟨i, h4, h5⟩, fun w a b => (h6 w a b).resolve ex a⟩

/-- The declared name, looked up: among the identifiers of an accepted file a name is found exactly if a struct or an enum
is declared with it, and then as what it is declared. -/
theorem C69_identifiers {u : Uni} {imports : List Str} {ls : List Line} {file : File} (h : parseFile u imports ls = .ok file) (n : Str) :
    (assocGet n file.ctx.idents = some .struct ↔ n ∈ file.structs.map (·.1)) ∧
    (∀ size, assocGet n file.ctx.idents = some (.enum size) ↔ ∃ e ∈ file.enums, e.name = n ∧ e.size = size) := by
  have hi := parseFile_inv h
  have hget : ∀ i, assocGet n file.ctx.idents = some i ↔ (n, i) ∈ file.ctx.idents := by
    intro i
    constructor
    · intro hg
      simp only [assocGet, Option.map_eq_some_iff] at hg
      obtain ⟨⟨a, b⟩, hf, rfl⟩ := hg
      have h1 := List.mem_of_find?_eq_some hf
      have h2 := List.find?_some hf
      simp only [decide_eq_true_eq] at h2
      simp only at h2 ⊢
      rw [← h2]; exact h1
    · intro hm
      have hnd := hi.nodup
      generalize file.ctx.idents = m at hm hnd
      induction m with
      | nil => simp at hm
      | cons q m ih =>
        simp only [List.map_cons, List.nodup_cons] at hnd
        simp only [List.mem_cons] at hm
        unfold assocGet
        rw [List.find?_cons]
        rcases hm with rfl | hm
        · simp
        · have : q.1 ≠ n := fun e => hnd.1 (e ▸ List.mem_map.2 ⟨_, hm, rfl⟩)
          simp only [this, decide_false]
          exact ih hm hnd.2
  constructor
  · rw [hget, hi.perm.mem_iff]
    simp only [List.mem_append, List.mem_map, Prod.mk.injEq, and_true, reduceCtorEq, and_false, exists_const, or_false]
    simp
  · intro size
    rw [hget, hi.perm.mem_iff]
    simp only [List.mem_append, List.mem_map, Prod.mk.injEq, reduceCtorEq, and_false, exists_const, false_or, Ident.enum.injEq]

/-- Lines of a small file: a struct that refers to an enum and a struct that come later, and to itself. -/
def forwardFile : List Line :=
  [⟨[lit "Struct", lit "A", lit "{", lit "\n"], false⟩,
   ⟨[lit "E", lit "Color", lit "@0", lit "\n"], false⟩,
   ⟨[lit "Bs", lit "[]B", lit "@2", lit "\n"], false⟩,
   ⟨[lit "Next", lit "A", lit "@1", lit "\n"], false⟩,
   ⟨[lit "M", lit "map[string]map[int8]B", lit "@3", lit "\n"], false⟩,
   ⟨[lit "}", lit "\n"], false⟩,
   ⟨[lit "Enum", lit "Color", lit "uint16", lit "{", lit "\n"], false⟩,
   ⟨[lit "Red", lit "@0", lit "\n"], false⟩,
   ⟨[lit "}", lit "\n"], false⟩,
   ⟨[lit "Struct", lit "B", lit "{", lit "\n"], false⟩,
   ⟨[lit "X", lit "bool", lit "@0", lit "\n"], false⟩,
   ⟨[lit "}", []], true⟩]

/-- The struct fields as they are compiled. -/
def compiledTypes (o : Out File) : Option (List (Str × List (Option (FT × Bool)))) :=
  match o with
  | .ok file => some (file.structs.map fun p => (p.1, p.2.map fun f =>
      match resolve file.ctx.idents (fun _ => .err) f with
      | .ok g => some (g.type, g.isEnum)
      | _ => none))
  | _ => none

/-- The file is accepted; `Color` is known to be a 16-bit enum although it comes later. -/
example : compiledTypes (parseFile ascii [] forwardFile) =
    some [(lit "A", [some (.uint16, true), some (.struct, false), some (.listStructs, false), some (.map, false)]),
      (lit "B", [some (.bool, false)])] := by
  decide +kernel

example : ∃ file, parseFile ascii [] forwardFile = .ok file ∧ (∃ p ∈ file.structs, p.1 = lit "A" ∧ p.2.length = 4) ∧
    (Written.ref (lit "Color") false).OK ∧ (Written.ref (lit "Color") false).compiled file.ctx.idents = some (.uint16, true, none) := by
  have h : ∃ file, parseFile ascii [] forwardFile = .ok file ∧ (∃ p ∈ file.structs, p.1 = lit "A" ∧ p.2.length = 4) ∧
      assocGet (lit "Color") file.ctx.idents = some (.enum 16) := by
    have h : (match parseFile ascii [] forwardFile with
      | .ok file => decide (∃ p ∈ file.structs, p.1 = lit "A" ∧ p.2.length = 4) &&
          decide (assocGet (lit "Color") file.ctx.idents = some (.enum 16))
      | _ => false) = true := by decide +kernel
    split at h
    · rename_i file hf
      simp only [Bool.and_eq_true, decide_eq_true_eq] at h
      exact ⟨file, hf, h⟩
    · simp at h
  obtain ⟨file, h1, h2, h3⟩ := h
  refine ⟨file, h1, h2, ⟨by decide, by decide, ?_⟩, by simp [Written.compiled, h3, meaning]⟩
  intro t ht
  cases t <;> first | exact absurd rfl ht | decide

/-- C69 fails for the values of maps: a map from any key to any local name at all is accepted, whatever is declared, and is
compiled as a map to structs. Neither a missing declaration nor one of an enum is noticed. -/
theorem C69_map_values_not_checked (c : Ctx) (sname : Str) (f : Field) (k : FT) (n : Str) (hk : k.IsMapKey) (hn : LocalName n)
    (ids : List (Str × Ident)) (ex : Str → Out (List (Str × Ident))) :
    ∃ g, fieldType c sname f (lit "map[" ++ scalarText k ++ lit "]" ++ n) = .ok (g, c) ∧ g.type = .map ∧
      g.map = some (.flat k .struct n) ∧ resolve ids ex g = .ok g := by
  have hok : (MapTy.named k n).OK := ⟨hk, hn⟩
  have h2 := text_parseMapType (.named k n) (MapTy.OK.readable c hok) (Nat.le_refl _)
  have h0 := plainType_map (.named k n)
  have h1 : Str.hasPrefix (lit "map[") (MapTy.named k n).text = true := by
    rw [hasPrefix_iff]; simp only [MapTy.text, List.append_assoc]; exact List.prefix_append _ _
  have hc : (MapTy.named k n).after c = c := by simp [MapTy.after, splitDot_none hn.2.1]
  refine ⟨{ f with type := .map, map := some (.flat k .struct n) }, ?_, rfl, rfl, ?_⟩
  · show fieldType c sname f (MapTy.named k n).text = _
    unfold fieldType
    rw [h0]
    simp only [h1, if_true, h2, hc, Out.ok_bind, Out.pure_eq, MapTy.info]
  · unfold resolve
    rw [if_pos (by simp)]

/-- With an enum `E` and a missing `F`: both fields are accepted as maps to structs. -/
example : (match parseFile ascii [] [⟨[lit "Enum", lit "E", lit "uint8", lit "{", lit "\n"], false⟩, ⟨[lit "X", lit "@0", lit "\n"], false⟩,
      ⟨[lit "}", lit "\n"], false⟩, ⟨[lit "Struct", lit "A", lit "{", lit "\n"], false⟩,
      ⟨[lit "M", lit "map[string]E", lit "@0", lit "\n"], false⟩, ⟨[lit "N", lit "map[bool]F", lit "@1", lit "\n"], false⟩,
      ⟨[lit "}", lit "\n"], false⟩] with
    | .ok file => file.structs.map fun p => p.2.map (·.map)
    | _ => []) = [[some (.flat .string .struct (lit "E")), some (.flat .bool .struct (lit "F"))]] := by
  decide +kernel

/-- C69 fails for malformed types: `map[string][]int32` (a list cannot be a map value) is taken for a map to a struct named
`[]int32`, `map[string]` for a map to a struct without name, and `[]A[]B` for `[]A`. -/
theorem C69_malformed_types_accepted (c : Ctx) (sname : Str) (f : Field) :
    (∃ g, fieldType c sname f (lit "map[string][]int32") = .ok (g, c) ∧ g.map = some (.flat .string .struct (lit "[]int32"))) ∧
    (∃ g, fieldType c sname f (lit "map[string]") = .ok (g, c) ∧ g.map = some (.flat .string .struct [])) ∧
    fieldType c sname f (lit "[]A[]B") = refType c sname f true (lit "A") := by
  have leaf : ∀ n : Str, (∀ t : FT, t.IsScalar → n ≠ scalarText t) → ¬ lit "map[" <+: n → n ≠ lit "[]Any" → (46 : UInt8) ∉ n →
      ∃ g, fieldType c sname f (lit "map[string]" ++ n) = .ok (g, c) ∧ g.map = some (.flat .string .struct n) := by
    intro n a1 a2 a3 a4
    have hr : (MapTy.named .string n).Readable c := by
      refine ⟨by decide, a1, a2, a3, ?_⟩
      intro p q hs; rw [splitDot_none a4] at hs; simp at hs
    have h2 := text_parseMapType (.named .string n) hr (Nat.le_refl _)
    have h0 := plainType_map (.named .string n)
    have ht : (MapTy.named .string n).text = lit "map[string]" ++ n := by
      show lit "map[" ++ scalarText .string ++ lit "]" ++ n = _
      congr 1
    have h1 : Str.hasPrefix (lit "map[") (MapTy.named .string n).text = true := by
      rw [hasPrefix_iff]; simp only [MapTy.text, List.append_assoc]; exact List.prefix_append _ _
    have hc : (MapTy.named .string n).after c = c := by simp [MapTy.after, splitDot_none a4]
    refine ⟨{ f with type := .map, map := some (.flat .string .struct n) }, ?_, rfl⟩
    rw [← ht]
    unfold fieldType
    rw [h0]
    simp only [h1, if_true, h2, hc, Out.ok_bind, Out.pure_eq, MapTy.info]
  refine ⟨?_, ?_, ?_⟩
  · have := leaf (lit "[]int32") (by intro t; cases t <;> decide) (by decide) (by decide) (by decide)
    have e : lit "map[string]" ++ lit "[]int32" = lit "map[string][]int32" := by decide
    rwa [e] at this
  · have := leaf [] (by intro t; cases t <;> decide) (by decide) (by decide) (by decide)
    simpa using this
  · rfl

/-! ## C70 -/

/-- C70 but for fields: in an accepted file, whatever its text, all structs and enums have distinct names, which are
identifiers, and the enumerators of each enum have distinct names. Missing: the fields of a struct, see
`C70_duplicate_fields_accepted`. -/
theorem C70_distinct_names_partial {u : Uni} {imports : List Str} {ls : List Line} {file : File} (h : parseFile u imports ls = .ok file) :
    (file.structs.map (·.1) ++ file.enums.map (·.name)).Nodup ∧ (∀ n ∈ file.structs.map (·.1) ++ file.enums.map (·.name), u.Ident n) ∧
      ∀ e ∈ file.enums, (e.names.map (·.1)).Nodup := by
  have hi := parseFile_inv h
  have hp := hi.perm.map (·.1)
  simp only [List.map_append, List.map_map, Function.comp_def] at hp
  refine ⟨hp.nodup_iff.1 hi.nodup, ?_, fun e he => (hi.enums e he).2⟩
  intro n hn
  obtain ⟨p, h1, rfl⟩ := List.mem_map.1 (hp.mem_iff.2 hn)
  exact hi.names p h1

/-- C70 fails for fields: a struct whose fields all have the same name is accepted like any other. -/
theorem C70_duplicate_fields_accepted {u : Uni} {c : Ctx} {kw name a : Str} {t₁ t₂ : List Str} {eof : Bool} {ds : List Decl}
    {ls rest : List Line} (hname : u.Ident name) (ht₁ : Trailer t₁) (ht₂ : Trailer t₂) (hb : Body Decl.line ds ls)
    (hd : ∀ d ∈ ds, d.OK u c name) (hall : ∀ d ∈ ds, d.name = a) (hne : 1 ≤ ds.length) (hlen : ds.length ≤ 65536)
    (hnum : (ds.map (·.num)).Perm ((List.range ds.length).map fun (i : Nat) => (i : Int))) :
    ∃ fs c', parseStruct u c (structBlock kw name t₁ t₂ eof ls rest) = .ok (name, fs, c', rest) ∧ fs.length = ds.length ∧
      ∀ f ∈ fs, f.name = a := by
  have hpos : ∀ d ∈ ds, 0 ≤ d.num := by
    intro d hd1
    have : d.num ∈ (List.range ds.length).map fun (i : Nat) => (i : Int) := hnum.mem_iff.1 (List.mem_map.2 ⟨d, hd1, rfl⟩)
    obtain ⟨i, hi, hi2⟩ := List.mem_map.1 this
    omega
  obtain ⟨r, hr⟩ := (C47_dense_iff_partial (kw := kw) (eof := eof) (rest := rest) hname ht₁ ht₂ hb hd hpos).2 ⟨hne, hlen, hnum⟩
  have key := C47_accepted_iff (kw := kw) (eof := eof) (rest := rest) hname ht₁ ht₂ hb hd
  split at key
  · obtain ⟨fs, c', k1, k2, k3⟩ := key
    refine ⟨fs, c', k1, by have := congrArg List.length k3; simpa using this, ?_⟩
    intro f hf
    have := k2.mem_iff.1 (List.mem_map.2 ⟨f, hf, rfl⟩)
    simp only [List.mem_map, Prod.mk.injEq] at this
    obtain ⟨d, h0, h1, _⟩ := this
    rw [← h1]; exact hall d h0
  · rw [key] at hr; simp at hr

/-- Two fields named `A`. -/
example : (match parseStruct ascii ⟨[], [], []⟩ [⟨[lit "Struct", lit "T", lit "{", lit "\n"], false⟩,
        ⟨[lit "A", lit "bool", lit "@0", lit "\n"], false⟩, ⟨[lit "A", lit "string", lit "@1", lit "\n"], false⟩,
        ⟨[lit "}", lit "\n"], false⟩] with
      | .ok (_, fs, _) => fs.map fun f => (f.name, f.type)
      | _ => []) = [(lit "A", .bool), (lit "A", .string)] := by
  decide +kernel

example : ∃ file, parseFile ascii [] forwardFile = .ok file ∧ file.structs.map (·.1) = [lit "A", lit "B"] ∧
    file.enums.map (·.name) = [lit "Color"] := by
  have h : (match parseFile ascii [] forwardFile with
    | .ok file => decide (file.structs.map (·.1) = [lit "A", lit "B"]) && decide (file.enums.map (·.name) = [lit "Color"])
    | _ => false) = true := by decide +kernel
  split at h
  · rename_i file hf
    simp only [Bool.and_eq_true, decide_eq_true_eq] at h
    exact ⟨file, hf, h⟩
  · simp at h

end Claw.Idl
