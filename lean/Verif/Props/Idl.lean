import Verif.Lemmas.Idl

/-!
# C47, C48: what the schema compiler accepts
-/

namespace Claw.Idl

set_option linter.unusedSimpArgs false

/-- ASCII letters and digits, for the examples. -/
def ascii : Uni :=
  { runes := fun s => s.map (·.toNat)
    isLower := fun r => 97 ≤ r && r ≤ 122
    isUpper := fun r => 65 ≤ r && r ≤ 90
    isLetter := fun r => (97 ≤ r && r ≤ 122) || (65 ≤ r && r ≤ 90)
    isNumber := fun r => 48 ≤ r && r ≤ 57 }

/-! ## C47 -/

/-- C47: whatever its text, a struct that is accepted has at least one field, and its field number `i` is at position `i`
of the compiled fields: they are `0..n-1`, each once, in numeric order. -/
theorem C47_accepted_in_order {u : Uni} {c : Ctx} {ls : List Line} {name : Str} {fs : List Field} {c' : Ctx} {rest : List Line}
    (h : parseStruct u c ls = .ok (name, fs, c', rest)) :
    fs ≠ [] ∧ ∀ i (hi : i < fs.length), (fs[i]).index = i := by
  cases ls with
  | nil => simp [parseStruct] at h
  | cons l ls =>
    simp only [parseStruct, Out.bind_eq_ok, Out.pure_eq, Out.ok.injEq, Prod.mk.injEq] at h
    obtain ⟨_, _, n, _, _, _, b, _, _, _, _, _, ⟨gs, c1, r1⟩, h1, rfl, rfl, rfl, rfl⟩ := h
    obtain ⟨hs, k1, k2, k3⟩ := parseFields_ok h1
    refine ⟨?_, ?_⟩
    · intro hne
      simp only at hne
      rw [hne] at k2
      exact fieldsLoop_nonempty _ k1 (k2.nil_eq).symm
    · intro i hi
      simp only at hi ⊢
      have : (gs.map (·.index))[i]'(by simpa using hi) = (List.range gs.length)[i]'(by simpa using hi) := by
        simp only [k3]
      simpa using this

/-- The struct block a user writes. -/
def structBlock (kw name : Str) (t₁ t₂ : List Str) (eof : Bool) (ls rest : List Line) : List Line :=
  structOpening kw name t₁ :: (ls ++ closing t₂ eof :: rest)

/-- C47: exactly which field numbers are accepted, for any declarations that are otherwise well formed, written in any
order and with comment lines anywhere: there is at least one, none exceeds 65535 or underflows a 64-bit integer, and the
numbers **modulo 65536** are `0..n-1` without repetition. The compiled fields are then the declared ones in numeric
order. For numbers that are not negative this is the property, see `C47_dense_iff_partial`. -/
theorem C47_accepted_iff {u : Uni} {c : Ctx} {kw name : Str} {t₁ t₂ : List Str} {eof : Bool} {ds : List Decl} {ls rest : List Line}
    (hname : u.Ident name) (ht₁ : Trailer t₁) (ht₂ : Trailer t₂) (hb : Body Decl.line ds ls) (hd : ∀ d ∈ ds, d.OK u c name) :
    if ds ≠ [] ∧ (∀ d ∈ ds, -2 ^ 63 ≤ d.num ∧ d.num ≤ 65535) ∧
        (ds.map fun d => (d.num % 65536).toNat).Perm (List.range ds.length) then
      ∃ fs c', parseStruct u c (structBlock kw name t₁ t₂ eof ls rest) = .ok (name, fs, c', rest) ∧
        (fs.map fun f => (f.name, f.index)).Perm (ds.map fun d => (d.name, (d.num % 65536).toNat)) ∧
        fs.map (·.index) = List.range ds.length
    else parseStruct u c (structBlock kw name t₁ t₂ eof ls rest) = .err := by
  have hlen : 3 ≤ (structOpening kw name t₁).items.length := by simp [structOpening]
  have h1 : (structOpening kw name t₁).item 1 = .ok name := rfl
  have h2 : (structOpening kw name t₁).item 2 = .ok (lit "{") := rfl
  have h3 : commentOrEOL (structOpening kw name t₁) 3 = .ok () := commentOrEOL_trailer (a := [kw, name, lit "{"]) ht₁
  have hg : Out.guard (decide (3 ≤ (structOpening kw name t₁).items.length)) = .ok () := guard_ok.2 (by simpa using hlen)
  have hg2 : Out.guard (decide True) = .ok () := guard_ok.2 (by simp)
  have base : parseStruct u c (structBlock kw name t₁ t₂ eof ls rest) =
      (parseFields u name c (ls ++ closing t₂ eof :: rest) >>= fun r => Out.ok (name, r.1, r.2.1, r.2.2)) := by
    simp only [structBlock, parseStruct, hg, hg2, h1, h2, h3, validateIdent_ok.2 hname, Out.ok_bind, Out.pure_eq]
  have hloop := fieldsLoop_body (eof := eof) (rest := rest) hb ht₂ hd c [] [] (.refl c)
  by_cases h0 : (∀ d ∈ ds, NumOK d.num) ∧ ([] ≠ ([] : List Field) ∨ ds ≠ [])
  · rw [if_pos h0] at hloop
    obtain ⟨gs, c', k1, _, k3⟩ := hloop
    simp only [List.nil_append] at k1
    have hgl : gs.length = ds.length := by simpa using congrArg List.length k3
    have hgi : gs.map (·.index) = ds.map fun d => (d.num % 65536).toNat := by
      simpa [List.map_map, Function.comp_def, toUint16] using congrArg (List.map Prod.snd) k3
    by_cases hperm : (ds.map fun d => (d.num % 65536).toNat).Perm (List.range ds.length)
    · rw [if_pos ⟨h0.2.resolve_left (by simp), h0.1, hperm⟩]
      have hp : (gs.map (·.index)).Perm (List.range gs.length) := by rw [hgi, hgl]; exact hperm
      refine ⟨sortBy (fun a b => a.index ≤ b.index) gs, c', ?_, ?_, ?_⟩
      · rw [base]
        simp only [parseFields, k1, Out.ok_bind, (checkIds_perm gs).2 hp, Out.pure_eq]
      · have := (sortBy_perm gs (fun a b => decide (a.index ≤ b.index))).map fun f => (f.name, f.index)
        rw [k3] at this
        exact this
      · rw [sort_index gs hp, hgl]
    · rw [if_neg fun h => hperm h.2.2, base]
      have hne : checkIds (List.replicate gs.length false) gs ≠ .ok () := by
        intro h
        apply hperm
        have := (checkIds_perm gs).1 h
        rwa [hgi, hgl] at this
      have herr : checkIds (List.replicate gs.length false) gs = .err := by
        cases hc : checkIds (List.replicate gs.length false) gs with
        | ok a => exact absurd hc hne
        | err => rfl
        | panic => exact absurd hc (checkIds_total _ _)
      simp only [parseFields, k1, Out.ok_bind, herr, Out.err_bind]
  · rw [if_neg h0] at hloop
    rw [if_neg fun h => h0 ⟨h.2.1, Or.inr h.1⟩, base]
    simp only [parseFields, hloop, Out.err_bind]

/-- C47 for numbers that are not negative: the struct is accepted exactly when the numbers are `0..n-1` without repetition,
with `1 ≤ n ≤ 65536`. Missing: negative numbers, see `C47_negative_accepted`. -/
theorem C47_dense_iff_partial {u : Uni} {c : Ctx} {kw name : Str} {t₁ t₂ : List Str} {eof : Bool} {ds : List Decl} {ls rest : List Line}
    (hname : u.Ident name) (ht₁ : Trailer t₁) (ht₂ : Trailer t₂) (hb : Body Decl.line ds ls) (hd : ∀ d ∈ ds, d.OK u c name)
    (hpos : ∀ d ∈ ds, 0 ≤ d.num) :
    (∃ r, parseStruct u c (structBlock kw name t₁ t₂ eof ls rest) = .ok r) ↔
      1 ≤ ds.length ∧ ds.length ≤ 65536 ∧ (ds.map (·.num)).Perm ((List.range ds.length).map fun (i : Nat) => (i : Int)) := by
  have key := C47_accepted_iff (kw := kw) (eof := eof) (rest := rest) hname ht₁ ht₂ hb hd
  have hmod : ∀ d ∈ ds, d.num ≤ 65535 → (d.num % 65536).toNat = d.num.toNat := by
    intro d h h2
    rw [Int.emod_eq_of_lt (hpos d h) (by omega)]
  constructor
  · rintro ⟨r, hr⟩
    split at key
    · rename_i hc
      obtain ⟨h1, h2, h3⟩ := hc
      have e1 : (ds.map fun d => (d.num % 65536).toNat) = ds.map fun d => d.num.toNat :=
        List.map_congr_left fun d h => hmod d h (h2 d h).2
      rw [e1] at h3
      have h4 := h3.map fun (i : Nat) => (i : Int)
      rw [List.map_map] at h4
      have e2 : (ds.map ((fun (i : Nat) => (i : Int)) ∘ fun d => d.num.toNat)) = ds.map (·.num) :=
        List.map_congr_left fun d h => by simp only [Function.comp]; exact Int.toNat_of_nonneg (hpos d h)
      rw [e2] at h4
      have hlen : 1 ≤ ds.length := by
        cases ds with
        | nil => exact absurd rfl h1
        | cons a b => simp
      refine ⟨hlen, ?_, h4⟩
      have : ((ds.length - 1 : Nat) : Int) ∈ ds.map (·.num) :=
        h4.mem_iff.2 (List.mem_map.2 ⟨ds.length - 1, List.mem_range.2 (by omega), rfl⟩)
      obtain ⟨d, hd1, hd2⟩ := List.mem_map.1 this
      have := (h2 d hd1).2
      omega
    · rw [key] at hr; simp at hr
  · rintro ⟨h1, h2, h3⟩
    have hle : ∀ d ∈ ds, d.num ≤ 65535 := by
      intro d hd1
      have : d.num ∈ (List.range ds.length).map fun (i : Nat) => (i : Int) := h3.mem_iff.1 (List.mem_map.2 ⟨d, hd1, rfl⟩)
      obtain ⟨i, hi, hi2⟩ := List.mem_map.1 this
      have := List.mem_range.1 hi
      omega
    rw [if_pos] at key
    · obtain ⟨fs, c', k, _⟩ := key
      exact ⟨_, k⟩
    · refine ⟨by rintro rfl; simp at h1, fun d h => ⟨by have := hpos d h; omega, hle d h⟩, ?_⟩
      have h4 := h3.map Int.toNat
      rw [List.map_map, List.map_map] at h4
      have e1 : (ds.map fun d => (d.num % 65536).toNat) = ds.map (Int.toNat ∘ (·.num)) :=
        List.map_congr_left fun d h => hmod d h (hle d h)
      rw [e1]
      simpa [Function.comp_def] using h4

/-- C47 fails for negative numbers: a struct with the single field `@-65536` is accepted, its field becoming number 0. -/
theorem C47_negative_accepted :
    parseStruct ascii ⟨[], [], []⟩ [⟨[lit "Struct", lit "T", lit "{", lit "\n"], false⟩,
        ⟨[lit "A", lit "bool", lit "@-65536", lit "\n"], false⟩, ⟨[lit "}", lit "\n"], false⟩] =
      .ok (lit "T", [⟨[], lit "A", 0, .bool, false, false, [], false, none⟩], ⟨[], [], []⟩, []) := by
  decide +kernel

/-- A struct with three fields out of order and a comment; the hypotheses of `C47_accepted_iff` hold for it. -/
def idlDemo : List Decl := [⟨lit "C", lit "[]string", 2, [lit "\n"]⟩, ⟨lit "A", lit "map[string]int32", 0, [lit "//", lit "x", lit "\n"]⟩,
  ⟨lit "B", lit "T", 1, [lit "\n"]⟩]

theorem ident_ascii (c : UInt8) (h : 65 ≤ c ∧ c ≤ 90) : ascii.Ident [c] := by
  refine ⟨c.toNat, [], rfl, ?_, ?_, by simp⟩
  · have h2 := UInt8.le_iff_toNat_le.1 h.2
    simp [ascii] at *
    intro h; omega
  · have h1 := UInt8.le_iff_toNat_le.1 h.1
    have h2 := UInt8.le_iff_toNat_le.1 h.2
    simp [ascii] at *
    omega

example : ascii.Ident (lit "T") ∧ (∀ d ∈ idlDemo, d.OK ascii ⟨[], [], []⟩ (lit "T")) ∧
    Body Decl.line idlDemo (⟨[lit "//", lit "doc", lit "\n"], false⟩ :: idlDemo.map Decl.line) ∧ (∀ d ∈ idlDemo, 0 ≤ d.num) := by
  refine ⟨ident_ascii 84 (by decide), ?_, ?_, by decide⟩
  · intro d hd
    simp only [idlDemo, List.mem_cons, List.not_mem_nil, or_false] at hd
    rcases hd with rfl | rfl | rfl
    · exact ⟨ident_ascii 67 (by decide), ⟨by decide, by decide⟩, ⟨_, _, rfl⟩, trivial⟩
    · exact ⟨ident_ascii 65 (by decide), ⟨by decide, by decide⟩, ⟨_, _, rfl⟩, ⟨[], rfl⟩⟩
    · exact ⟨ident_ascii 66 (by decide), ⟨by decide, by decide⟩, ⟨_, _, rfl⟩, trivial⟩
  · exact .comment _ _ ⟨[], rfl⟩ (.decl _ (.decl _ (.decl _ .nil)))

/-! ## C48 -/

/-- C48, first part: whatever its text, an enum that is accepted has at least one enumerator; the names are distinct, and so
are the stored values; all values fit 16 bits; and looking up by name and by value finds the same enumerators. -/
theorem C48_distinct {u : Uni} {ls : List Line} {e : Enum} {rest : List Line} (h : parseEnum u ls = .ok (e, rest)) :
    e.names ≠ [] ∧ (e.names.map (·.1)).Nodup ∧ (e.values.map (·.1)).Nodup ∧
      e.names.map (·.2) = e.values.map (·.2) ∧
      (∀ p ∈ e.names, p.1 = p.2.name ∧ u.Ident p.1) ∧ (∀ p ∈ e.values, p.1 = p.2.value ∧ p.1 < 65536) := by
  cases ls with
  | nil => simp [parseEnum] at h
  | cons l ls =>
    simp only [parseEnum, Out.bind_eq_ok] at h
    obtain ⟨_, _, name, _, _, _, width, _, size, _, b, _, _, _, _, _, h⟩ := h
    have h0 : EnumInv ⟨name, size, [], []⟩ [] := ⟨rfl, rfl, by simp, by simp, by simp⟩
    obtain ⟨ws, k1, k2, _, _, k5⟩ := enumLoop_inv ls h0 h
    simp only [List.nil_append] at k1 k2
    refine ⟨by rw [k1.names]; simpa using k2, by rw [k1.names]; simpa [Function.comp_def] using k1.nodupNames, by rw [k1.values]; simpa [Function.comp_def] using k1.nodupValues,
      by rw [k1.names, k1.values]; simp, ?_, ?_⟩
    · intro p hp
      rw [k1.names] at hp
      obtain ⟨v, hv, rfl⟩ := List.mem_map.1 hp
      exact ⟨rfl, k5 v hv⟩
    · intro p hp
      rw [k1.values] at hp
      obtain ⟨v, hv, rfl⟩ := List.mem_map.1 hp
      exact ⟨rfl, k1.small v hv⟩

/-- The enum block a user writes. -/
def enumBlock (kw name : Str) (w : Width) (t₁ t₂ : List Str) (eof : Bool) (ls rest : List Line) : List Line :=
  enumOpening kw name w t₁ :: (ls ++ closing t₂ eof :: rest)

/-- Exactly which enumerators are accepted, for any declarations that are otherwise well formed: at least one, distinct
names, numbers that are not negative and fit 63 bits, distinct **modulo 65536**. The value stored is the number modulo
65536, whatever the declared width. -/
theorem C48_accepted_iff {u : Uni} {kw name : Str} {w : Width} {t₁ t₂ : List Str} {eof : Bool} {ds : List Enumerator}
    {ls rest : List Line} (hname : u.Ident name) (ht₁ : Trailer t₁) (ht₂ : Trailer t₂) (hb : Body Enumerator.line ds ls)
    (hd : ∀ d ∈ ds, d.OK u) :
    if ds ≠ [] ∧ (∀ d ∈ ds, 0 ≤ d.num ∧ d.num < 2 ^ 63) ∧ (ds.map (·.name)).Nodup ∧ (ds.map fun d => (d.num % 65536).toNat).Nodup then
      ∃ e, parseEnum u (enumBlock kw name w t₁ t₂ eof ls rest) = .ok (e, rest) ∧ e.name = name ∧ e.size = w.bits ∧
        e.values.map (fun p => (p.2.name, p.1)) = ds.map (fun d => (d.name, (d.num % 65536).toNat)) ∧
        e.names.map (fun p => (p.1, p.2.value)) = ds.map (fun d => (d.name, (d.num % 65536).toNat))
    else parseEnum u (enumBlock kw name w t₁ t₂ eof ls rest) = .err := by
  have hlen : 5 ≤ (enumOpening kw name w t₁).items.length := by
    simp only [enumOpening, List.length_append, List.length_cons, List.length_nil]
    cases t₁ with
    | nil => exact absurd ht₁ (by simp [Trailer])
    | cons a b => simp only [List.length_cons]; omega
  have h1 : (enumOpening kw name w t₁).item 1 = .ok name := rfl
  have h2 : (enumOpening kw name w t₁).item 2 = .ok w.text := rfl
  have h3 : (enumOpening kw name w t₁).item 3 = .ok (lit "{") := rfl
  have h4 : commentOrEOL (enumOpening kw name w t₁) 4 = .ok () := commentOrEOL_trailer (a := [kw, name, w.text, lit "{"]) ht₁
  have hg : Out.guard (decide (5 ≤ (enumOpening kw name w t₁).items.length)) = .ok () := guard_ok.2 (by simpa using hlen)
  have hg2 : Out.guard (decide True) = .ok () := guard_ok.2 (by simp)
  have hw : enumWidth w.text = Out.ok w.bits := by cases w <;> decide
  have base : parseEnum u (enumBlock kw name w t₁ t₂ eof ls rest) =
      enumLoop u [] ⟨name, w.bits, [], []⟩ (ls ++ closing t₂ eof :: rest) := by
    simp only [enumBlock, parseEnum, hg, hg2, h1, h2, h3, h4, validateIdent_ok.2 hname, hw, Out.ok_bind, Out.pure_eq]
  have h0 : EnumInv ⟨name, w.bits, [], []⟩ [] := ⟨rfl, rfl, by simp, by simp, by simp⟩
  have hloop := enumLoop_body (eof := eof) (rest := rest) hb ht₂ hd [] _ _ h0
  simp only [List.map_nil, List.nil_append] at hloop
  by_cases hc : ds ≠ [] ∧ (∀ d ∈ ds, 0 ≤ d.num ∧ d.num < 2 ^ 63) ∧ (ds.map (·.name)).Nodup ∧ (ds.map fun d => (d.num % 65536).toNat).Nodup
  · rw [if_pos ⟨hc.2, Or.inr hc.1⟩] at hloop
    rw [if_pos hc]
    obtain ⟨ws, e', k1, k2, k3, k4, k5⟩ := hloop
    refine ⟨e', by rw [base, k1], k3, k4, ?_, ?_⟩
    · rw [k2.values, List.map_map]; exact k5
    · rw [k2.names, List.map_map]; exact k5
  · rw [if_neg fun h => hc ⟨h.2.resolve_left (by simp), h.1⟩] at hloop
    rw [if_neg hc, base]
    exact hloop

/-- C48, for enumerators whose numbers fit the declared width: an accepted enum stores the declared numbers. Missing: the
width is not checked, see `C48_width_not_checked`. -/
theorem C48_values_kept_partial {u : Uni} {kw name : Str} {w : Width} {t₁ t₂ : List Str} {eof : Bool} {ds : List Enumerator}
    {ls rest : List Line} (hname : u.Ident name) (ht₁ : Trailer t₁) (ht₂ : Trailer t₂) (hb : Body Enumerator.line ds ls)
    (hd : ∀ d ∈ ds, d.OK u) (hfit : ∀ d ∈ ds, d.num < 2 ^ w.bits) {e : Enum} {r : List Line}
    (h : parseEnum u (enumBlock kw name w t₁ t₂ eof ls rest) = .ok (e, r)) :
    r = rest ∧ e.names.map (fun p => (p.1, (p.2.value : Int))) = ds.map (fun d => (d.name, d.num)) ∧
      (ds.map (·.num)).Nodup ∧ ∀ p ∈ e.values, p.1 < 2 ^ w.bits := by
  have key := C48_accepted_iff (kw := kw) (w := w) (eof := eof) (rest := rest) hname ht₁ ht₂ hb hd
  have hw : (2 : Int) ^ w.bits ≤ 65536 := by cases w <;> decide
  split at key
  · rename_i hc
    obtain ⟨e', k1, _, _, k4, k5⟩ := key
    rw [h] at k1
    simp only [Out.ok.injEq, Prod.mk.injEq] at k1
    obtain ⟨rfl, rfl⟩ := k1
    have hm : ∀ d ∈ ds, (((d.num % 65536).toNat : Nat) : Int) = d.num := by
      intro d hd1
      have h1 := (hc.2.1 d hd1).1
      have h2 := hfit d hd1
      rw [Int.emod_eq_of_lt h1 (by omega)]
      omega
    refine ⟨rfl, ?_, ?_, ?_⟩
    · have := congrArg (List.map fun (p : Str × Nat) => (p.1, (p.2 : Int))) k5
      rw [List.map_map, List.map_map] at this
      refine Eq.trans ?_ (this.trans ?_)
      · rfl
      · apply List.map_congr_left
        intro d hd1
        simp only [Function.comp, hm d hd1]
    · have h1 := hc.2.2.2
      have h2 : ds.map (·.num) = (ds.map fun d => (d.num % 65536).toNat).map fun (n : Nat) => (n : Int) := by
        rw [List.map_map]
        exact List.map_congr_left fun d hd1 => (hm d hd1).symm
      rw [h2]
      exact List.Pairwise.map _ (by intro a b hab; omega) h1
    · intro p hp
      have : (p.2.name, p.1) ∈ ds.map (fun d => (d.name, (d.num % 65536).toNat)) := by
        rw [← k4]; exact List.mem_map.2 ⟨p, hp, rfl⟩
      obtain ⟨d, hd1, hd2⟩ := List.mem_map.1 this
      simp only [Prod.mk.injEq] at hd2
      have h1 := hm d hd1
      have h2 := hfit d hd1
      rw [hd2.2] at h1
      have h3 : ((2 ^ w.bits : Nat) : Int) = 2 ^ w.bits := by simp
      omega
  · rw [h] at key; simp at key

/-- C48 fails: the declared width is not enforced. Every number from 256 up is accepted in a `uint8` enum. -/
theorem C48_width_not_checked {u : Uni} {kw name a : Str} {t₁ t₂ t₃ : List Str} {eof : Bool} {rest : List Line} (n : Int)
    (hname : u.Ident name) (ha : u.Ident a) (hp : Plain a) (ht₁ : Trailer t₁) (ht₂ : Trailer t₂) (ht₃ : Trailer t₃)
    (hn : 256 ≤ n) (hn2 : n < 2 ^ 63) :
    ∃ e, parseEnum u (enumBlock kw name .w8 t₁ t₂ eof [(⟨a, n, t₃⟩ : Enumerator).line] rest) = .ok (e, rest) ∧ e.size = 8 ∧
      e.values.map (·.1) = [(n % 65536).toNat] := by
  have key := C48_accepted_iff (kw := kw) (w := .w8) (eof := eof) (rest := rest) (ds := [⟨a, n, t₃⟩]) hname ht₁ ht₂ (.decl _ .nil)
    (by intro d hd; simp only [List.mem_singleton] at hd; subst hd; exact ⟨ha, hp, ht₃⟩)
  rw [if_pos ⟨by simp, by simp; omega, by simp, by simp⟩] at key
  obtain ⟨e, k1, _, k3, k4, _⟩ := key
  refine ⟨e, k1, k3, ?_⟩
  have := congrArg (List.map Prod.snd) k4
  simpa [List.map_map, Function.comp_def] using this

example : ascii.Ident (lit "E") ∧ ascii.Ident (lit "A") ∧ Plain (lit "A") ∧ Trailer [lit "\n"] :=
  ⟨ident_ascii 69 (by decide), ident_ascii 65 (by decide), ⟨by decide, by decide⟩, trivial⟩

/-- C48 fails: two enumerators that differ by 65536 are taken for duplicates, and `@65536` alone is stored as 0. -/
theorem C48_wraps {u : Uni} {kw name a : Str} {t₁ t₂ t₃ : List Str} {eof : Bool} {rest : List Line}
    (hname : u.Ident name) (ha : u.Ident a) (hp : Plain a) (ht₁ : Trailer t₁) (ht₂ : Trailer t₂) (ht₃ : Trailer t₃) :
    ∃ e, parseEnum u (enumBlock kw name .w16 t₁ t₂ eof [(⟨a, 65536, t₃⟩ : Enumerator).line] rest) = .ok (e, rest) ∧
      e.values.map (·.1) = [0] := by
  have key := C48_accepted_iff (kw := kw) (w := .w16) (eof := eof) (rest := rest) (ds := [⟨a, 65536, t₃⟩]) hname ht₁ ht₂ (.decl _ .nil)
    (by intro d hd; simp only [List.mem_singleton] at hd; subst hd; exact ⟨ha, hp, ht₃⟩)
  rw [if_pos ⟨by simp, by simp, by simp, by simp⟩] at key
  obtain ⟨e, k1, _, _, k4, _⟩ := key
  refine ⟨e, k1, ?_⟩
  have := congrArg (List.map Prod.snd) k4
  simpa [List.map_map, Function.comp_def] using this

/-- What the templates need of an enum: its enumerators by value and by name. -/
def Renders (pairs : List (Nat × EnumVal)) : Prop :=
  ∃ l m, orderByValues pairs = .ok l ∧ orderByNames pairs = .ok m

/-- C48, second part: exactly which accepted enums can be rendered. In whatever order the map is visited, rendering succeeds
if the values are `0..n-1`, and panics otherwise. When it succeeds it lists every enumerator once, by increasing value and
by increasing name. The property (rendering never fails) therefore holds for dense enums only. -/
theorem C48_renders_iff_dense_partial {u : Uni} {ls : List Line} {e : Enum} {rest : List Line} (h : parseEnum u ls = .ok (e, rest))
    {pairs : List (Nat × EnumVal)} (hord : pairs.Perm e.values) :
    (Renders pairs ↔ (e.values.map (·.1)).Perm (List.range e.values.length)) ∧
    (¬ Renders pairs → orderByValues pairs = .panic ∧ orderByNames pairs = .panic) ∧
    (∀ l, orderByValues pairs = .ok l → l.Perm (e.values.map (·.2)) ∧ l.map (·.value) = List.range e.values.length) ∧
    (∀ m, orderByNames pairs = .ok m → m.Perm (e.values.map (·.2)) ∧ m.Pairwise fun a b => strLe a.name b.name = true ∧ a.name ≠ b.name) := by
  obtain ⟨_, hnn, hnv, hsame, hp1, hp2⟩ := C48_distinct h
  have hlen : pairs.length = e.values.length := hord.length_eq
  have hkeys : (pairs.map (·.1)).Perm (e.values.map (·.1)) := hord.map _
  have hvals : (pairs.map (·.2)).Perm (e.values.map (·.2)) := hord.map _
  have hnd : (pairs.map (·.1)).Nodup := hkeys.nodup_iff.2 hnv
  have hiff : (pairs.map (·.1)).Perm (List.range pairs.length) ↔ (e.values.map (·.1)).Perm (List.range e.values.length) := by
    rw [hlen]
    exact ⟨fun h => hkeys.symm.trans h, fun h => hkeys.trans h⟩
  by_cases hd : (pairs.map (·.1)).Perm (List.range pairs.length)
  · obtain ⟨l, hf, hl⟩ := fill_ok hd
    have e1 : orderByValues pairs = .ok (sortBy (fun a b => a.value ≤ b.value) l) := by
      simp only [orderByValues, hf, Out.ok_bind, Out.pure_eq]
    have e2 : orderByNames pairs = .ok (sortBy (fun a b => strLe a.name b.name) l) := by
      simp only [orderByNames, hf, Out.ok_bind, Out.pure_eq]
    have hr : Renders pairs := ⟨_, _, e1, e2⟩
    refine ⟨⟨fun _ => hiff.1 hd, fun _ => hr⟩, fun hn => absurd hr hn, ?_, ?_⟩
    · intro l' hl'
      rw [e1] at hl'
      simp only [Out.ok.injEq] at hl'
      subst hl'
      have hp := sortBy_perm l (fun a b => decide (a.value ≤ b.value))
      refine ⟨hp.trans (hl.trans hvals), ?_⟩
      have hs := sortBy_pairwise (le := fun a b : EnumVal => decide (a.value ≤ b.value))
        (by intro a b c; simp only [decide_eq_true_eq]; omega)
        (by intro a b; simp only [Bool.or_eq_true, decide_eq_true_eq]; omega) l
      have hv : (e.values.map (·.2)).map (·.value) = e.values.map (·.1) := by
        rw [List.map_map]
        exact List.map_congr_left fun p hp => ((hp2 p hp).1).symm
      refine List.Perm.eq_of_pairwise (le := fun a b : Nat => a ≤ b) (by intro a b _ _ h1 h2; omega) ?_ List.pairwise_le_range ?_
      · rw [List.pairwise_map]; exact hs.imp (by intro a b; simp)
      · have := (hp.trans (hl.trans hvals)).map (·.value)
        rw [hv] at this
        exact this.trans (hiff.1 hd)
    · intro m hm
      rw [e2] at hm
      simp only [Out.ok.injEq] at hm
      subst hm
      have hp := sortBy_perm l (fun a b => strLe a.name b.name)
      have hs := sortBy_pairwise (le := fun a b : EnumVal => strLe a.name b.name)
        (fun a b c => strLe_trans _ _ _) (fun a b => strLe_total _ _) l
      have hall : (sortBy (fun a b => strLe a.name b.name) l).Perm (e.values.map (·.2)) := hp.trans (hl.trans hvals)
      refine ⟨hall, ?_⟩
      have hn : ((e.values.map (·.2)).map (·.name)).Nodup := by
        rw [← hsame, List.map_map]
        have : e.names.map ((·.name) ∘ (·.2)) = e.names.map (·.1) := List.map_congr_left fun p hp => ((hp1 p hp).1).symm
        rw [this]; exact hnn
      have hn2 : ((sortBy (fun a b => strLe a.name b.name) l).map (·.name)).Nodup := (hall.map _).nodup_iff.2 hn
      exact hs.and (List.pairwise_map.1 hn2)
  · have hf := fill_fails hnd hd
    have e1 : orderByValues pairs = .panic := by simp only [orderByValues, hf, Out.panic_bind]
    have e2 : orderByNames pairs = .panic := by simp only [orderByNames, hf, Out.panic_bind]
    refine ⟨⟨?_, fun h => absurd (hiff.2 h) hd⟩, fun _ => ⟨e1, e2⟩, ?_, ?_⟩
    · rintro ⟨l, m, h1, _⟩
      rw [e1] at h1; simp at h1
    · intro l h1; rw [e1] at h1; simp at h1
    · intro l h1; rw [e2] at h1; simp at h1

/-- C48 fails: `Enum E uint8 { A @1 }` is accepted and cannot be rendered; nor can `A @0, B @2`. -/
theorem C48_gap_not_rendered : ∃ e,
    parseEnum ascii [⟨[lit "Enum", lit "E", lit "uint8", lit "{", lit "\n"], false⟩, ⟨[lit "A", lit "@0", lit "\n"], false⟩,
      ⟨[lit "B", lit "@2", lit "\n"], false⟩, ⟨[lit "}", lit "\n"], false⟩] = .ok (e, []) ∧
    e.values.map (·.1) = [0, 2] ∧ orderByValues e.values = .panic ∧ orderByNames e.values = .panic := by
  refine ⟨⟨lit "E", 8, [(lit "A", ⟨[], lit "A", 0⟩), (lit "B", ⟨[], lit "B", 2⟩)],
    [(0, ⟨[], lit "A", 0⟩), (2, ⟨[], lit "B", 2⟩)]⟩, by decide +kernel, rfl, by decide +kernel, by decide +kernel⟩

/-- A dense enum with its enumerators out of order is accepted and rendered. -/
example : ∃ e, parseEnum ascii [⟨[lit "Enum", lit "E", lit "uint8", lit "{", lit "\n"], false⟩, ⟨[lit "B", lit "@1", lit "\n"], false⟩,
      ⟨[lit "//", lit "zero", lit "\n"], false⟩, ⟨[lit "A", lit "@0", lit "\n"], false⟩, ⟨[lit "}", lit "\n"], false⟩] = .ok (e, []) ∧
    (e.values.map (·.1)).Perm (List.range e.values.length) ∧ Renders e.values := by
  have h : parseEnum ascii [⟨[lit "Enum", lit "E", lit "uint8", lit "{", lit "\n"], false⟩, ⟨[lit "B", lit "@1", lit "\n"], false⟩,
      ⟨[lit "//", lit "zero", lit "\n"], false⟩, ⟨[lit "A", lit "@0", lit "\n"], false⟩, ⟨[lit "}", lit "\n"], false⟩] =
      .ok (⟨lit "E", 8, [(lit "B", ⟨[], lit "B", 1⟩), (lit "A", ⟨[lit "zero"], lit "A", 0⟩)],
        [(1, ⟨[], lit "B", 1⟩), (0, ⟨[lit "zero"], lit "A", 0⟩)]⟩, []) := by decide +kernel
  refine ⟨_, h, by decide, ?_⟩
  exact ((C48_renders_iff_dense_partial h (.refl _)).1).2 (by decide)

end Claw.Idl
