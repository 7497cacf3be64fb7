import Verif.Lemmas.Idl

/-! Lemmas about field types and files. -/

namespace Claw.Idl

set_option linter.unusedSimpArgs false

instance (t : FT) : Decidable t.IsScalar := inferInstanceAs (Decidable (scalarText t ≠ []))
instance (t : FT) : Decidable t.IsMapKey := inferInstanceAs (Decidable (t.IsScalar ∧ t ≠ .bytes ∧ t ≠ .any))

theorem ite_some {α : Type} {p : Prop} [Decidable p] {a t : α} {r : Option α} (h : (if p then some a else r) = some t) :
    (p ∧ a = t) ∨ r = some t := by
  by_cases hp : p
  · rw [if_pos hp] at h; exact Or.inl ⟨hp, Option.some.inj h⟩
  · rw [if_neg hp] at h; exact Or.inr h

theorem parseScalarType_iff {s : Str} {t : FT} : parseScalarType s = some t ↔ t.IsScalar ∧ s = scalarText t := by
  constructor
  · intro h
    unfold parseScalarType at h
    iterate 14
      rcases ite_some h with ⟨hs, ht⟩ | h
      · subst ht; exact ⟨by decide, hs⟩
    simp at h
  · rintro ⟨h, rfl⟩
    cases t <;> first | exact absurd rfl h | decide

theorem plainType_iff {s : Str} {t : FT} : plainType s = some t ↔
    (t.IsScalar ∧ s = scalarText t) ∨ ∃ x : FT, x.IsScalar ∧ s = lit "[]" ++ scalarText x ∧ t = listOf x := by
  constructor
  · intro h
    unfold plainType at h
    iterate 28
      rcases ite_some h with ⟨hs, ht⟩ | h
      · subst ht
        first
          | exact Or.inl ⟨by decide, hs⟩
          | exact Or.inr ⟨.bool, by decide, hs, rfl⟩
          | exact Or.inr ⟨.int8, by decide, hs, rfl⟩
          | exact Or.inr ⟨.int16, by decide, hs, rfl⟩
          | exact Or.inr ⟨.int32, by decide, hs, rfl⟩
          | exact Or.inr ⟨.int64, by decide, hs, rfl⟩
          | exact Or.inr ⟨.uint8, by decide, hs, rfl⟩
          | exact Or.inr ⟨.uint16, by decide, hs, rfl⟩
          | exact Or.inr ⟨.uint32, by decide, hs, rfl⟩
          | exact Or.inr ⟨.uint64, by decide, hs, rfl⟩
          | exact Or.inr ⟨.float32, by decide, hs, rfl⟩
          | exact Or.inr ⟨.float64, by decide, hs, rfl⟩
          | exact Or.inr ⟨.string, by decide, hs, rfl⟩
          | exact Or.inr ⟨.bytes, by decide, hs, rfl⟩
          | exact Or.inr ⟨.any, by decide, hs, rfl⟩
    simp at h
  · rintro (⟨h, rfl⟩ | ⟨x, h, rfl, rfl⟩)
    · cases t <;> first | exact absurd rfl h | decide
    · cases x <;> first | exact absurd rfl h | decide

theorem isKey_iff {t : FT} (h : t.IsScalar) : t.isKey = true ↔ t.IsMapKey := by
  cases t <;> first | exact absurd rfl h | decide

theorem isMapValue_scalar {t : FT} (h : t.IsScalar) : t.isMapValue = true := by
  cases t <;> first | rfl | exact absurd rfl h

/-- The text of a key has no brackets. -/
theorem scalarText_noBracket (t : FT) : (91 : UInt8) ∉ scalarText t ∧ (93 : UInt8) ∉ scalarText t := by
  cases t <;> decide

theorem scanKey_one (a b : Str) (h1 : (91 : UInt8) ∉ a) (h2 : (93 : UInt8) ∉ a) : scanKey 1 (a ++ 93 :: b) = some (a, b) := by
  induction a with
  | nil => simp [scanKey]
  | cons c a ih =>
    simp only [List.mem_cons, not_or] at h1 h2
    have e1 : ¬ c = 91 := fun h => h1.1 h.symm
    have e2 : ¬ c = 93 := fun h => h2.1 h.symm
    simp only [List.cons_append, scanKey, e1, e2, if_false, ih h1.2 h2.2, Option.map_some]

theorem scanKey_eq {d : Nat} {s a b : Str} (h : scanKey d s = some (a, b)) : s = a ++ 93 :: b := by
  induction s generalizing d a b with
  | nil => simp [scanKey] at h
  | cons c s ih =>
    unfold scanKey at h
    split at h
    · simp only [Option.map_eq_some_iff, Prod.mk.injEq] at h
      obtain ⟨⟨x, y⟩, h, h1, h2⟩ := h
      simp only at h1 h2; subst h1 h2
      simp [ih h]
    · split at h
      · rename_i hc
        split at h
        · simp only [Option.some.injEq, Prod.mk.injEq] at h
          obtain ⟨rfl, rfl⟩ := h
          simp [hc]
        · simp only [Option.map_eq_some_iff, Prod.mk.injEq] at h
          obtain ⟨⟨x, y⟩, h, h1, h2⟩ := h
          simp only at h1 h2; subst h1 h2
          simp [ih h]
      · simp only [Option.map_eq_some_iff, Prod.mk.injEq] at h
        obtain ⟨⟨x, y⟩, h, h1, h2⟩ := h
        simp only at h1 h2; subst h1 h2
        simp [ih h]

theorem hasPrefix_iff {p s : Str} : Str.hasPrefix p s = true ↔ p <+: s := by
  simp [Str.hasPrefix]

/-- What the parser takes for a named value of a map: anything that is not one of the other kinds. -/
structure NameLeaf (c : Ctx) (n : Str) : Prop where
  notScalar : ∀ t : FT, t.IsScalar → n ≠ scalarText t
  notMap : ¬ lit "map[" <+: n
  notAnys : n ≠ lit "[]Any"
  imported : ∀ p q, splitDot n = [p, q] → p ∈ c.imports

/-- The map types the parser reads. -/
def MapTy.Readable (c : Ctx) : MapTy → Prop
  | .scalar k v => k.IsMapKey ∧ v.IsScalar
  | .anys k => k.IsMapKey
  | .named k n => k.IsMapKey ∧ NameLeaf c n
  | .map k i => k.IsMapKey ∧ i.Readable c

/-- The context after a map type was read. -/
def MapTy.after (c : Ctx) : MapTy → Ctx
  | .scalar _ _ => c
  | .anys _ => c
  | .named _ n => match splitDot n with
    | [_, _] => { c with external := n :: c.external }
    | _ => c
  | .map _ i => i.after c

theorem noteMapExternal_iff {c c' : Ctx} {n : Str} : noteMapExternal c n = .ok c' ↔
    (∀ p q, splitDot n = [p, q] → p ∈ c.imports) ∧ c' = MapTy.after c (.named .bool n) := by
  simp only [noteMapExternal, MapTy.after]
  split
  · rename_i p q hs
    simp only [Out.bind_eq_ok, guard_ok, decide_eq_true_eq, Out.ok.injEq]
    constructor
    · rintro ⟨_, h, rfl⟩
      refine ⟨?_, by simp [hs]⟩
      intro p' q' h'
      rw [hs] at h'
      simp only [List.cons.injEq] at h'
      rw [← h'.1]; exact h
    · rintro ⟨h, rfl⟩
      exact ⟨(), h _ _ hs, by simp [hs]⟩
  · rename_i hs
    simp only [Out.ok.injEq]
    constructor
    · rintro rfl
      exact ⟨fun p q h => absurd h (hs p q), rfl⟩
    · rintro ⟨_, rfl⟩
      rfl

/-- What the value of a map is read as. -/
def mapValue (fuel : Nat) (c : Ctx) (k : FT) (v : Str) : Out (MapInfo × Ctx) :=
  if Str.hasPrefix (lit "map[") v then
    (parseMapType fuel c v >>= fun r => Out.ok (.nested k r.1, r.2))
  else if v = lit "[]Any" then .ok (.flat k .listAny [], c)
  else match parseScalarType v with
    | some val => (Out.guard (val.isMapValue || val = .struct) >>= fun _ => Out.ok (.flat k val [], c))
    | none => (noteMapExternal c v >>= fun c => Out.ok (.flat k .struct v, c))

theorem lit_close : lit "]" = [93] := by decide

theorem mapText (a v : Str) : lit "map[" ++ a ++ lit "]" ++ v = lit "map[" ++ (a ++ 93 :: v) := by
  rw [lit_close]; simp

theorem parseMapType_iff {fuel : Nat} {c : Ctx} {s : Str} {r : MapInfo × Ctx} :
    parseMapType (fuel + 1) c s = .ok r ↔
      ∃ k v, k.IsMapKey ∧ s = lit "map[" ++ scalarText k ++ lit "]" ++ v ∧ mapValue fuel c k v = .ok r := by
  have hunf : parseMapType (fuel + 1) c s = (Out.guard (Str.hasPrefix (lit "map[") s) >>= fun _ =>
      Out.ofOption (scanKey 1 (s.drop 4)) >>= fun p => Out.ofOption (parseScalarType p.1) >>= fun k =>
        Out.guard k.isKey >>= fun _ => mapValue fuel c k p.2) := by
    rfl
  rw [hunf]
  simp only [Out.bind_eq_ok, guard_ok, ofOption_ok]
  constructor
  · rintro ⟨_, h0, ⟨a, v⟩, h1, k, h2, _, h3, h4⟩
    obtain ⟨hs, hk⟩ := parseScalarType_iff.1 h2
    obtain ⟨w, hw⟩ := hasPrefix_iff.1 h0
    refine ⟨k, v, (isKey_iff hs).1 h3, ?_, h4⟩
    have hd : s.drop 4 = w := by rw [← hw]; exact List.drop_left' (by decide)
    rw [hd] at h1
    have := scanKey_eq h1
    simp only at hk
    rw [mapText, ← hw, this, hk]
  · rintro ⟨k, v, hk, rfl, h⟩
    refine ⟨(), ?_, (scalarText k, v), ?_, k, ?_, (), ?_, h⟩
    · rw [hasPrefix_iff, mapText]; exact List.prefix_append _ _
    · rw [mapText, List.drop_left' (by decide)]
      exact scanKey_one _ _ (scalarText_noBracket k).1 (scalarText_noBracket k).2
    · exact parseScalarType_iff.2 ⟨hk.1, rfl⟩
    · exact (isKey_iff hk.1).2 hk

theorem scalarText_notMap (t : FT) : Str.hasPrefix (lit "map[") (scalarText t) = false ∧ scalarText t ≠ lit "[]Any" := by
  cases t <;> decide

theorem parseMapType_text {fuel : Nat} {c c' : Ctx} {s : Str} {m : MapInfo} :
    parseMapType fuel c s = .ok (m, c') →
      ∃ t : MapTy, t.Readable c ∧ t.text = s ∧ t.info = m ∧ t.after c = c' := by
  induction fuel generalizing s m c' with
  | zero => intro h; simp [parseMapType] at h
  | succ fuel ih =>
    intro h'
    obtain ⟨k, v, hk, rfl, h⟩ := parseMapType_iff.1 h'
    unfold mapValue at h
    by_cases h1 : Str.hasPrefix (lit "map[") v = true
    · rw [if_pos h1] at h
      simp only [Out.bind_eq_ok, Out.ok.injEq, Prod.mk.injEq] at h
      obtain ⟨⟨m', c1⟩, h, rfl, rfl⟩ := h
      obtain ⟨t, k1, rfl, k3, k4⟩ := ih h
      exact ⟨.map k t, ⟨hk, k1⟩, rfl, by simp [MapTy.info, k3], k4⟩
    · rw [if_neg h1] at h
      by_cases h2 : v = lit "[]Any"
      · rw [if_pos h2] at h
        simp only [Out.ok.injEq, Prod.mk.injEq] at h
        obtain ⟨rfl, rfl⟩ := h
        exact ⟨.anys k, hk, by rw [h2]; rfl, rfl, rfl⟩
      · rw [if_neg h2] at h
        cases hp : parseScalarType v with
        | some x =>
          rw [hp] at h
          simp only [Out.bind_eq_ok, Out.ok.injEq, Prod.mk.injEq] at h
          obtain ⟨_, _, rfl, rfl⟩ := h
          obtain ⟨q1, rfl⟩ := parseScalarType_iff.1 hp
          exact ⟨.scalar k x, ⟨hk, q1⟩, rfl, rfl, rfl⟩
        | none =>
          rw [hp] at h
          simp only [Out.bind_eq_ok, Out.ok.injEq, Prod.mk.injEq] at h
          obtain ⟨c1, h, rfl, rfl⟩ := h
          obtain ⟨q1, rfl⟩ := noteMapExternal_iff.1 h
          refine ⟨.named k v, ⟨hk, ⟨?_, ?_, h2, q1⟩⟩, rfl, rfl, rfl⟩
          · rintro t ht rfl
            rw [parseScalarType_iff.2 ⟨ht, rfl⟩] at hp
            simp at hp
          · rwa [← hasPrefix_iff]

theorem MapTy.length_text (t : MapTy) : 0 < t.text.length := by
  have : 0 < (lit "map[").length := by decide
  cases t <;> simp only [MapTy.text, List.length_append] <;> omega

theorem text_parseMapType (t : MapTy) : ∀ {fuel : Nat} {c : Ctx}, t.Readable c → t.text.length ≤ fuel →
    parseMapType fuel c t.text = .ok (t.info, t.after c) := by
  induction t with
  | scalar k v =>
    intro fuel c h hf
    have := MapTy.length_text (.scalar k v)
    obtain ⟨fuel, rfl⟩ : ∃ n, fuel = n + 1 := ⟨fuel - 1, by omega⟩
    refine parseMapType_iff.2 ⟨k, scalarText v, h.1, rfl, ?_⟩
    obtain ⟨e1, e2⟩ := scalarText_notMap v
    unfold mapValue
    rw [if_neg (by simp [e1]), if_neg e2, parseScalarType_iff.2 ⟨h.2, rfl⟩]
    have : Out.guard (v.isMapValue || decide (v = .struct)) = .ok () := guard_ok.2 (by simp [isMapValue_scalar h.2])
    simp only [this, Out.ok_bind, MapTy.info, MapTy.after]
  | anys k =>
    intro fuel c h hf
    have := MapTy.length_text (.anys k)
    obtain ⟨fuel, rfl⟩ : ∃ n, fuel = n + 1 := ⟨fuel - 1, by omega⟩
    refine parseMapType_iff.2 ⟨k, lit "[]Any", h, rfl, ?_⟩
    unfold mapValue
    rw [if_neg (by decide), if_pos rfl]
    rfl
  | named k n =>
    intro fuel c h hf
    have := MapTy.length_text (.named k n)
    obtain ⟨fuel, rfl⟩ : ∃ n, fuel = n + 1 := ⟨fuel - 1, by omega⟩
    refine parseMapType_iff.2 ⟨k, n, h.1, rfl, ?_⟩
    unfold mapValue
    rw [if_neg (by rw [hasPrefix_iff]; exact h.2.notMap), if_neg h.2.notAnys]
    have hp : parseScalarType n = none := by
      cases hp : parseScalarType n with
      | none => rfl
      | some x => exact absurd (parseScalarType_iff.1 hp).2 (h.2.notScalar x (parseScalarType_iff.1 hp).1)
    have hn := (noteMapExternal_iff (c := c) (n := n)).2 ⟨h.2.imported, rfl⟩
    rw [hp]
    simp only [hn, Out.ok_bind]
    rfl
  | map k i ih =>
    intro fuel c h hf
    have := MapTy.length_text (.map k i)
    obtain ⟨fuel, rfl⟩ : ∃ n, fuel = n + 1 := ⟨fuel - 1, by omega⟩
    have hl : i.text.length ≤ fuel := by
      have : 0 < (lit "map[").length := by decide
      simp only [MapTy.text, List.length_append] at hf
      omega
    refine parseMapType_iff.2 ⟨k, i.text, h.1, rfl, ?_⟩
    have hpre : Str.hasPrefix (lit "map[") i.text = true := by
      rw [hasPrefix_iff]
      cases i <;> simp only [MapTy.text, List.append_assoc] <;> exact List.prefix_append _ _
    unfold mapValue
    rw [if_pos hpre, ih h.2 hl]
    rfl

/-! ## Fields and what they were written as -/

theorem assocGet_append {κ α : Type} [DecidableEq κ] {k : κ} {m m' : List (κ × α)} :
    assocGet k (m ++ m') = (assocGet k m).or (assocGet k m') := by
  unfold assocGet
  rw [List.find?_append]
  cases List.find? (fun p => decide (p.1 = k)) m <;> rfl

theorem assocGet_add {κ α : Type} [DecidableEq κ] {k k' : κ} {v x : α} {m : List (κ × α)} (hn : k' ∉ m.map (·.1))
    (h : assocGet k m = some x) : assocGet k (assocSet k' v m) = some x := by
  rw [assocSet_new hn, assocGet_append, h]; rfl

theorem assocGet_same {κ α : Type} [DecidableEq κ] {k : κ} {v : α} {m : List (κ × α)} (hn : k ∉ m.map (·.1)) :
    assocGet k (assocSet k v m) = some v := by
  have : assocGet k m = none := by
    have := assocGet_none (k := k) (m := m) |>.2 hn
    simpa using this
  rw [assocSet_new hn, assocGet_append, this]
  simp [assocGet]

/-- What a field looks like after parsing, with the identifiers known so far. -/
def Written.Pre (ids : List (Str × Ident)) (f : Field) : Written → Prop
  | .scalar t => f.type = t ∧ f.isEnum = false ∧ f.map = none
  | .list t => f.type = listOf t ∧ f.isEnum = false ∧ f.map = none
  | .map t => f.type = .map ∧ f.isEnum = false ∧ f.map = some t.info
  | .ref n l => f.identName = n ∧ f.isList = l ∧ f.map = none ∧
      ((f.type = .unknown ∧ f.isEnum = false) ∨ (f.type ≠ .unknown ∧ meaning (assocGet n ids) l = some (f.type, f.isEnum)))

theorem meaning_none (l : Bool) : meaning none l = none := by cases l <;> rfl

theorem Written.Pre.add {ids : List (Str × Ident)} {f : Field} {w : Written} {k : Str} {v : Ident} (h : w.Pre ids f)
    (hn : k ∉ ids.map (·.1)) : w.Pre (assocSet k v ids) f := by
  cases w with
  | scalar t => exact h
  | list t => exact h
  | map t => exact h
  | ref n l =>
    obtain ⟨h1, h2, h3, h4⟩ := h
    refine ⟨h1, h2, h3, h4.imp id fun ⟨hu, h4⟩ => ⟨hu, ?_⟩⟩
    cases hg : assocGet n ids with
    | none => rw [hg, meaning_none] at h4; simp at h4
    | some i => rw [assocGet_add hn hg]; rw [hg] at h4; exact h4

theorem listOf_known {t : FT} (h : t.IsScalar) : listOf t ≠ .unknown ∧ t ≠ .unknown := by
  cases t <;> first | exact absurd rfl h | decide

/-- Resolving a field gives what was written. -/
theorem Written.Pre.resolve {ids : List (Str × Ident)} {f : Field} {w : Written} (ex : Str → Out (List (Str × Ident)))
    (h : w.Pre ids f) (hw : w.OK) :
    match w.compiled ids with
    | some (t, e, m) => ∃ g, resolve ids ex f = .ok g ∧ g.type = t ∧ g.isEnum = e ∧ g.map = m ∧ g.name = f.name ∧ g.index = f.index
    | none => resolve ids ex f = .err := by
  have known : f.type ≠ .unknown → Claw.Idl.resolve ids ex f = .ok f := fun hu => by unfold Claw.Idl.resolve; rw [if_pos hu]
  cases w with
  | scalar t =>
    obtain ⟨h1, h2, h3⟩ := h
    exact ⟨f, known (by rw [h1]; exact (listOf_known hw).2), h1, h2, h3, rfl, rfl⟩
  | list t =>
    obtain ⟨h1, h2, h3⟩ := h
    exact ⟨f, known (by rw [h1]; exact (listOf_known hw).1), h1, h2, h3, rfl, rfl⟩
  | map t =>
    obtain ⟨h1, h2, h3⟩ := h
    exact ⟨f, known (by rw [h1]; decide), h1, h2, h3, rfl, rfl⟩
  | ref n l =>
    obtain ⟨h1, h2, h3, h4⟩ := h
    simp only [Written.compiled]
    rcases h4 with ⟨h4, h5⟩ | ⟨h4, h5⟩
    · have hr : Claw.Idl.resolve ids ex f = match assocGet n ids with
        | some (.enum size) => match enumType size l with
          | some t => .ok { f with isEnum := true, type := t }
          | none => .err
        | some .struct => .ok { f with type := structType l }
        | none => .err := by
        subst h1 h2
        unfold Claw.Idl.resolve
        rw [if_neg (by simp [h4]), if_pos hw.2.1]
        rfl
      rw [hr]
      cases hg : assocGet n ids with
      | none => simp [meaning_none]
      | some i =>
        cases i with
        | struct => cases l <;> simp [meaning, structType, h3, h5]
        | enum size =>
          by_cases e8 : size = 8
          · subst e8; cases l <;> simp [meaning, enumType, h3]
          · by_cases e16 : size = 16
            · subst e16; cases l <;> simp [meaning, enumType, h3]
            · have : meaning (some (.enum size)) l = none := by
                unfold meaning
                split <;> simp_all
              simp [this, enumType, e8, e16]
    · rw [h5]
      exact ⟨f, known h4, rfl, rfl, h3, rfl, rfl⟩

/-- A field before its type is looked at. -/
def Field.Fresh (f : Field) : Prop := f.type = .unknown ∧ f.isEnum = false ∧ f.map = none ∧ f.isList = false ∧ f.identName = []

theorem refType_pre {c c' : Ctx} {sname : Str} {f g : Field} {l : Bool} {n : Str} (hf : f.Fresh)
    (h : refType c sname f l n = .ok (g, c')) : (Written.ref n l).Pre (assocSet sname .struct c.idents) g := by
  obtain ⟨f1, f2, f3, f4, f5⟩ := hf
  unfold refType at h
  split at h
  · rename_i hs
    subst hs
    simp only [Out.bind_eq_ok, guard_ok, Out.pure_eq, Out.ok.injEq, Prod.mk.injEq, assocGet_none] at h
    obtain ⟨_, hn, rfl, rfl⟩ := h
    refine ⟨rfl, rfl, f3, Or.inr ?_⟩
    rw [assocGet_same hn]
    cases l <;> simp [structType, meaning, f2]
  · rename_i hs
    have hne : ∀ i, assocGet n c.idents = some i → assocGet n (assocSet sname .struct c.idents) = some i := by
      intro i hi
      unfold assocSet
      rw [assocGet_append]
      have : assocGet n (List.filter (fun p => decide (p.1 ≠ sname)) c.idents) = some i := by
        unfold assocGet at hi ⊢
        rw [List.find?_filter]
        rw [← hi]
        congr 2
        funext p
        by_cases hp : p.1 = n
        · have : p.1 ≠ sname := fun h => hs (h.symm.trans hp)
          simp [hp, this]
          intro h; exact this (hp.trans h)
        · simp [hp]
      rw [this]; rfl
    split at h
    · rename_i size hi
      split at h
      · rename_i t ht
        simp only [Out.ok.injEq, Prod.mk.injEq] at h
        obtain ⟨rfl, rfl⟩ := h
        refine ⟨rfl, rfl, f3, Or.inr ?_⟩
        rw [hne _ hi]
        unfold enumType at ht
        by_cases e8 : size = 8
        · subst e8; cases l <;> simp at ht <;> subst ht <;> simp [meaning]
        · by_cases e16 : size = 16
          · subst e16; cases l <;> simp at ht <;> subst ht <;> simp [meaning]
          · simp [e8, e16] at ht
      · simp at h
    · rename_i hi
      simp only [Out.ok.injEq, Prod.mk.injEq] at h
      obtain ⟨rfl, rfl⟩ := h
      refine ⟨rfl, rfl, f3, Or.inr ?_⟩
      rw [hne _ hi]
      cases l <;> simp [structType, meaning, f2]
    · simp only [Out.bind_eq_ok, Out.pure_eq, Out.ok.injEq, Prod.mk.injEq] at h
      obtain ⟨_, _, rfl, rfl⟩ := h
      exact ⟨rfl, rfl, f3, Or.inl ⟨rfl, f2⟩⟩

theorem afterBrackets_id {s : Str} (h : (91 : UInt8) ∉ s) : afterBrackets s = s := by
  induction s with
  | nil => simp [afterBrackets]
  | cons c s ih =>
    simp only [List.mem_cons, not_or] at h
    unfold afterBrackets
    split
    · rename_i h1
      simp only [List.cons.injEq] at h1
      exact absurd h1.1.symm h.1
    · rename_i h1
      simp only [List.cons.injEq] at h1
      obtain ⟨rfl, rfl⟩ := h1
      rw [ih h.2]
    · rename_i h1; simp at h1

theorem scalarText_inj {t x : FT} (h : t.IsScalar) (hx : scalarText t = scalarText x) : t = x := by
  cases t <;> first | exact absurd rfl h | (cases x <;> first | rfl | exact absurd hx (by decide))

theorem list_ne_scalar (t x : FT) : lit "[]" ++ scalarText t ≠ scalarText x := by
  cases x <;> simp [scalarText, lit] <;> decide

theorem plainType_scalar {t : FT} (h : t.IsScalar) : plainType (scalarText t) = some t := plainType_iff.2 (Or.inl ⟨h, rfl⟩)
theorem plainType_list {t : FT} (h : t.IsScalar) : plainType (lit "[]" ++ scalarText t) = some (listOf t) :=
  plainType_iff.2 (Or.inr ⟨t, h, rfl, rfl⟩)

theorem plainType_ref {n : Str} (l : Bool) (h : (Written.ref n l).OK) : plainType (Written.ref n l).text = none := by
  cases hp : plainType (Written.ref n l).text with
  | none => rfl
  | some t =>
    exfalso
    rcases plainType_iff.1 hp with ⟨h1, h2⟩ | ⟨x, h1, h2, _⟩
    · cases l with
      | false => exact h.2.2 t h1 h2
      | true =>
        have := (scalarText_noBracket t).1
        rw [← h2] at this
        exact this (by simp [Written.text, lit])
    · cases l with
      | false =>
        refine h.1 ?_
        have h2 : n = lit "[]" ++ scalarText x := h2
        rw [h2]; simp [lit]
      | true => exact h.2.2 x h1 (List.append_cancel_left h2)

theorem plainType_map (t : MapTy) : plainType t.text = none := by
  cases hp : plainType t.text with
  | none => rfl
  | some x =>
    exfalso
    have hpre : lit "map[" <+: t.text := by
      cases t <;> simp only [MapTy.text, List.append_assoc] <;> exact List.prefix_append _ _
    have h91 : (91 : UInt8) ∈ t.text := hpre.subset (by decide)
    rcases plainType_iff.1 hp with ⟨h1, h2⟩ | ⟨y, h1, h2, _⟩
    · rw [h2] at h91; exact (scalarText_noBracket x).1 h91
    · rw [h2] at hpre
      obtain ⟨z, hz⟩ := hpre
      have := congrArg List.head? hz
      simp [lit] at this

theorem splitDot_none {s : Str} (h : (46 : UInt8) ∉ s) : splitDot s = [s] := by
  induction s with
  | nil => rfl
  | cons c s ih =>
    simp only [List.mem_cons, not_or] at h
    rw [splitDot, ih h.2]
    simp only
    rw [if_neg fun e => h.1 e.symm]

theorem MapTy.OK.readable {t : MapTy} (c : Ctx) (h : t.OK) : t.Readable c := by
  induction t with
  | scalar k v => exact h
  | anys k => exact h
  | named k n =>
    obtain ⟨h1, h2, h3, h4⟩ := h
    refine ⟨h1, fun t ht => h4 t ht, ?_, ?_, ?_⟩
    · rintro ⟨z, hz⟩; exact h2 (by rw [← hz]; simp [lit])
    · rintro rfl; exact h2 (by decide)
    · intro p q hs; rw [splitDot_none h3] at hs; simp at hs
  | map k i ih => exact ⟨h.1, ih h.2⟩

theorem fieldType_pre {c c' : Ctx} {sname ty : Str} {f g : Field} (hf : f.Fresh) (h : fieldType c sname f ty = .ok (g, c'))
    {w : Written} (hw : w.OK) (hty : w.text = ty) : w.Pre (assocSet sname .struct c.idents) g := by
  subst hty
  obtain ⟨f1, f2, f3, f4, f5⟩ := id hf
  unfold fieldType at h
  cases w with
  | scalar t =>
    have : plainType (Written.scalar t).text = some t := plainType_scalar hw
    rw [this] at h
    simp only [Out.ok.injEq, Prod.mk.injEq] at h
    obtain ⟨rfl, rfl⟩ := h
    exact ⟨rfl, f2, f3⟩
  | list t =>
    have : plainType (Written.list t).text = some (listOf t) := plainType_list hw
    rw [this] at h
    simp only [Out.ok.injEq, Prod.mk.injEq] at h
    obtain ⟨rfl, rfl⟩ := h
    exact ⟨rfl, f2, f3⟩
  | map t =>
    have h0 : plainType (Written.map t).text = none := plainType_map t
    have h1 : Str.hasPrefix (lit "map[") (Written.map t).text = true := by
      rw [hasPrefix_iff]
      simp only [Written.text]
      cases t <;> simp only [MapTy.text, List.append_assoc] <;> exact List.prefix_append _ _
    rw [h0] at h
    simp only [h1, if_true, Out.bind_eq_ok, Out.pure_eq, Out.ok.injEq, Prod.mk.injEq] at h
    obtain ⟨⟨m, c1⟩, h, rfl, rfl⟩ := h
    refine ⟨rfl, f2, ?_⟩
    simp only [Option.some.injEq]
    have h2 := text_parseMapType t (MapTy.OK.readable c hw) (Nat.le_refl _)
    simp only [Written.text] at h
    rw [h2] at h
    simp only [Out.ok.injEq, Prod.mk.injEq] at h
    exact h.1.symm
  | ref n l =>
    rw [plainType_ref l hw] at h
    have h1 : Str.hasPrefix (lit "map[") (Written.ref n l).text = false := by
      rw [Bool.eq_false_iff]
      intro hp
      obtain ⟨z, hz⟩ := hasPrefix_iff.1 hp
      cases l with
      | false => exact hw.1 (by simp only [Written.text] at hz; rw [← hz]; simp [lit])
      | true =>
        have := congrArg List.head? hz
        simp [lit, Written.text] at this
    simp only [h1, if_false, Bool.false_eq_true] at h
    cases l with
    | true =>
      have h2 : Str.hasPrefix (lit "[]") (Written.ref n true).text = true := by
        rw [hasPrefix_iff]; exact List.prefix_append _ _
      have h3 : (Written.ref n true).text.drop 2 = n := List.drop_left' (by decide)
      rw [if_pos h2, h3, afterBrackets_id hw.1] at h
      exact refType_pre hf h
    | false =>
      have h2 : ¬ Str.hasPrefix (lit "[]") (Written.ref n false).text = true := by
        rw [hasPrefix_iff]
        rintro ⟨z, hz⟩
        exact hw.1 (by simp only [Written.text] at hz; rw [← hz]; simp [lit])
      rw [if_neg h2] at h
      exact refType_pre hf h

/-- A field as it leaves the parser: it names nothing, or an enum or a struct that is known, or its type is left open. -/
def Shaped (ids : List (Str × Ident)) (f : Field) : Prop :=
  (f.identName = [] ∧ f.isEnum = false ∧ f.type ≠ .struct ∧ f.type ≠ .listStructs ∧ f.type ≠ .unknown) ∨
  (f.isEnum = true ∧ f.type ≠ .struct ∧ f.type ≠ .listStructs ∧ f.type ≠ .unknown ∧ ∃ size, assocGet f.identName ids = some (.enum size)) ∨
  (f.isEnum = false ∧ (f.type = .struct ∨ f.type = .listStructs) ∧ assocGet f.identName ids = some .struct) ∨
  (f.isEnum = false ∧ f.type = .unknown)

theorem Shaped.add {ids : List (Str × Ident)} {f : Field} {k : Str} {v : Ident} (h : Shaped ids f)
    (hn : k ∉ ids.map (·.1)) : Shaped (assocSet k v ids) f := by
  rcases h with h | ⟨h1, h2, h3, h4, z, h5⟩ | ⟨h1, h2, h3⟩ | h
  · exact Or.inl h
  · exact Or.inr (Or.inl ⟨h1, h2, h3, h4, z, assocGet_add hn h5⟩)
  · exact Or.inr (Or.inr (Or.inl ⟨h1, h2, assocGet_add hn h3⟩))
  · exact Or.inr (Or.inr (Or.inr h))

theorem assocGet_other {κ α : Type} [DecidableEq κ] {k k' : κ} {v : α} {m : List (κ × α)} (hs : k' ≠ k) :
    assocGet k (assocSet k' v m) = assocGet k m := by
  unfold assocSet
  rw [assocGet_append]
  have h1 : assocGet k (List.filter (fun p => decide (p.1 ≠ k')) m) = assocGet k m := by
    unfold assocGet
    rw [List.find?_filter]
    congr 2
    funext p
    by_cases hp : p.1 = k
    · subst hp
      simp [Ne.symm hs]
    · simp [hp]
  have h2 : assocGet k [(k', v)] = none := by simp [assocGet, hs]
  rw [h1, h2]; simp

theorem refType_shaped {c c' : Ctx} {sname : Str} {f g : Field} {l : Bool} {n : Str} (hf : f.Fresh)
    (h : refType c sname f l n = .ok (g, c')) : Shaped (assocSet sname .struct c.idents) g := by
  obtain ⟨f1, f2, f3, f4, f5⟩ := hf
  unfold refType at h
  split at h
  · rename_i hs
    subst hs
    simp only [Out.bind_eq_ok, guard_ok, Out.pure_eq, Out.ok.injEq, Prod.mk.injEq, assocGet_none] at h
    obtain ⟨_, hn, rfl, rfl⟩ := h
    exact Or.inr (Or.inr (Or.inl ⟨f2, by cases l <;> simp [structType], assocGet_same hn⟩))
  · rename_i hs
    split at h
    · rename_i size hi
      split at h
      · rename_i t ht
        simp only [Out.ok.injEq, Prod.mk.injEq] at h
        obtain ⟨rfl, rfl⟩ := h
        have ht' : t ≠ .struct ∧ t ≠ .listStructs ∧ t ≠ .unknown := by
          unfold enumType at ht
          by_cases e8 : size = 8
          · subst e8; cases l <;> simp at ht <;> subst ht <;> simp
          · by_cases e16 : size = 16
            · subst e16; cases l <;> simp at ht <;> subst ht <;> simp
            · simp [e8, e16] at ht
        exact Or.inr (Or.inl ⟨rfl, ht'.1, ht'.2.1, ht'.2.2, size, (assocGet_other hs).trans hi⟩)
      · simp at h
    · rename_i hi
      simp only [Out.ok.injEq, Prod.mk.injEq] at h
      obtain ⟨rfl, rfl⟩ := h
      exact Or.inr (Or.inr (Or.inl ⟨f2, by cases l <;> simp [structType], (assocGet_other hs).trans hi⟩))
    · simp only [Out.bind_eq_ok, Out.pure_eq, Out.ok.injEq, Prod.mk.injEq] at h
      obtain ⟨_, _, rfl, rfl⟩ := h
      exact Or.inr (Or.inr (Or.inr ⟨f2, rfl⟩))

theorem fieldType_shaped {c c' : Ctx} {sname ty : Str} {f g : Field} (hf : f.Fresh) (h : fieldType c sname f ty = .ok (g, c')) :
    Shaped (assocSet sname .struct c.idents) g := by
  have hf' := hf
  obtain ⟨f1, f2, f3, f4, f5⟩ := hf'
  unfold fieldType at h
  split at h
  · rename_i t ht
    simp only [Out.ok.injEq, Prod.mk.injEq] at h
    obtain ⟨rfl, rfl⟩ := h
    refine Or.inl ⟨f5, f2, ?_⟩
    rcases plainType_iff.1 ht with ⟨h1, _⟩ | ⟨x, h1, _, rfl⟩
    · cases t <;> first | exact absurd rfl h1 | simp
    · cases x <;> first | exact absurd rfl h1 | simp [listOf]
  · split at h
    · simp only [Out.bind_eq_ok, Out.pure_eq, Out.ok.injEq, Prod.mk.injEq] at h
      obtain ⟨_, _, rfl, rfl⟩ := h
      exact Or.inl ⟨f5, f2, by simp⟩
    · split at h
      · exact refType_shaped hf h
      · exact refType_shaped hf h

/-- A line a field was read from. -/
def FromLine (ids : List (Str × Ident)) (l : Line) (f : Field) : Prop :=
  ∃ ty num i, l.items[0]? = some f.name ∧ l.items[1]? = some ty ∧ l.items[2]? = some num ∧ atNumber num = .ok i ∧ f.index = toUint16 i ∧
    (∀ w : Written, w.OK → w.text = ty → w.Pre ids f) ∧ Shaped ids f

theorem FromLine.add {ids : List (Str × Ident)} {l : Line} {f : Field} {k : Str} {v : Ident} (h : FromLine ids l f)
    (hn : k ∉ ids.map (·.1)) : FromLine (assocSet k v ids) l f := by
  obtain ⟨ty, num, i, h1, h2, h3, h4, h5, h6, h7⟩ := h
  exact ⟨ty, num, i, h1, h2, h3, h4, h5, fun w a b => (h6 w a b).add hn, h7.add hn⟩

theorem item_ok {l : Line} {i : Nat} {s : Str} : l.item i = .ok s ↔ l.items[i]? = some s := by
  unfold Line.item
  cases l.items[i]? <;> simp

theorem Written.Pre.index {ids : List (Str × Ident)} {f : Field} {w : Written} (n : Nat) (h : w.Pre ids f) :
    w.Pre ids { f with index := n } := by
  cases w <;> exact h

theorem parseField_from {u : Uni} {sname : Str} {c c' : Ctx} {cm : List Str} {l : Line} {f : Field}
    (h : parseField u sname c cm l = .ok (f, c')) : FromLine (assocSet sname .struct c.idents) l f ∧ c.Same c' := by
  simp only [parseField, Out.bind_eq_ok, guard_ok, Out.pure_eq, Out.ok.injEq, Prod.mk.injEq, item_ok] at h
  obtain ⟨_, _, _, _, name, h1, _, _, ty, h2, ⟨g, c1⟩, h3, num, h4, i, h5, _, _, _, _, rfl, rfl⟩ := h
  obtain ⟨k1, _, k2, _⟩ := fieldType_same (.refl c) h3
  refine ⟨⟨ty, num, i, ?_, h2, h4, h5, rfl, ?_, ?_⟩, k1⟩
  · simp only at k2 ⊢; rw [k2]; exact h1
  · intro w a b
    exact (fieldType_pre (by exact ⟨rfl, rfl, rfl, rfl, rfl⟩) h3 a b).index _
  · have := fieldType_shaped (by exact ⟨rfl, rfl, rfl, rfl, rfl⟩) h3
    exact this

theorem fieldsLoop_from {u : Uni} {sname : Str} : ∀ (ls : List Line) {c : Ctx} {pend : List Str} {fs gs : List Field} {c' : Ctx}
    {rest : List Line}, fieldsLoop u sname c pend fs ls = .ok (gs, c', rest) →
    c.Same c' ∧ rest <:+ ls ∧ rest ≠ ls ∧ ∀ f ∈ gs, f ∈ fs ∨ ∃ l ∈ ls, FromLine (assocSet sname .struct c.idents) l f := by
  intro ls
  induction ls with
  | nil => intro c pend fs gs c' rest h; simp [fieldsLoop] at h
  | cons l ls ih =>
    intro c pend fs gs c' rest h
    unfold fieldsLoop at h
    simp only [Out.bind_eq_ok] at h
    obtain ⟨first, _, h⟩ := h
    split at h
    · simp only [Out.bind_eq_ok, Out.pure_eq, Out.ok.injEq, Prod.mk.injEq] at h
      obtain ⟨_, _, _, _, _, _, rfl, rfl, rfl⟩ := h
      exact ⟨.refl c, List.suffix_cons _ _, by simp, fun f hf => Or.inl hf⟩
    · split at h
      · simp at h
      · split at h
        · obtain ⟨k1, k2, k3, k4⟩ := ih h
          refine ⟨k1, k2.trans (List.suffix_cons _ _), fun e => by have := k2.length_le; rw [e] at this; simp at this; omega, fun f hf => (k4 f hf).imp id ?_⟩
          rintro ⟨l', h1, h2⟩; exact ⟨l', List.mem_cons_of_mem _ h1, h2⟩
        · simp only [Out.bind_eq_ok] at h
          obtain ⟨⟨f1, c1⟩, h1, h⟩ := h
          obtain ⟨q1, q2⟩ := parseField_from h1
          obtain ⟨k1, k2, k3, k4⟩ := ih h
          refine ⟨q2.trans k1, k2.trans (List.suffix_cons _ _), fun e => by have := k2.length_le; rw [e] at this; simp at this; omega, fun f hf => ?_⟩
          rcases k4 f hf with h2 | ⟨l', h2, h3⟩
          · simp only [List.mem_append, List.mem_singleton] at h2
            rcases h2 with h2 | rfl
            · exact Or.inl h2
            · exact Or.inr ⟨l, by simp, q1⟩
          · rw [← q2.1] at h3
            exact Or.inr ⟨l', List.mem_cons_of_mem _ h2, h3⟩

theorem parseStruct_from {u : Uni} {c c' : Ctx} {ls rest : List Line} {name : Str} {fs : List Field}
    (h : parseStruct u c ls = .ok (name, fs, c', rest)) :
    c.Same c' ∧ rest <:+ ls ∧ rest ≠ ls ∧ u.Ident name ∧ ∀ f ∈ fs, ∃ l ∈ ls, FromLine (assocSet name .struct c.idents) l f := by
  cases ls with
  | nil => simp [parseStruct] at h
  | cons l ls =>
    simp only [parseStruct, Out.bind_eq_ok, Out.pure_eq, Out.ok.injEq, Prod.mk.injEq] at h
    obtain ⟨_, _, n, _, _, hn, b, _, _, _, _, _, ⟨gs, c1, r1⟩, h1, rfl, rfl, rfl, rfl⟩ := h
    obtain ⟨hs, k1, k2, k3⟩ := parseFields_ok h1
    obtain ⟨q1, q2, q3, q4⟩ := fieldsLoop_from _ k1
    refine ⟨q1, q2.trans (List.suffix_cons _ _), fun e => by simp only at e; have := q2.length_le; rw [e] at this; simp at this; omega, validateIdent_ok.1 hn, fun f hf => ?_⟩
    rcases q4 f (k2.mem_iff.1 hf) with h2 | ⟨l', h2, h3⟩
    · simp at h2
    · exact ⟨l', List.mem_cons_of_mem _ h2, h3⟩

theorem enumLoop_rest {u : Uni} : ∀ (ls : List Line) {pend : List Str} {e e' : Enum} {rest : List Line},
    enumLoop u pend e ls = .ok (e', rest) → rest <:+ ls ∧ rest ≠ ls := by
  intro ls
  induction ls with
  | nil => intro pend e e' rest h; simp [enumLoop] at h
  | cons l ls ih =>
    intro pend e e' rest h
    unfold enumLoop at h
    simp only [Out.bind_eq_ok] at h
    obtain ⟨first, _, h⟩ := h
    split at h
    · simp only [Out.bind_eq_ok, Out.pure_eq, Out.ok.injEq, Prod.mk.injEq] at h
      obtain ⟨_, _, _, _, _, _, rfl, rfl⟩ := h
      exact ⟨List.suffix_cons _ _, by simp⟩
    · have step : ∀ {r : List Line}, r <:+ ls → r <:+ l :: ls ∧ r ≠ l :: ls := fun {r} k =>
        ⟨k.trans (List.suffix_cons _ _), fun e => by have := k.length_le; rw [e] at this; simp at this; omega⟩
      split at h
      · simp at h
      · split at h
        · exact step (ih h).1
        · simp only [Out.bind_eq_ok] at h
          obtain ⟨e1, _, h⟩ := h
          exact step (ih h).1

theorem parseEnum_facts {u : Uni} {ls rest : List Line} {e : Enum} (h : parseEnum u ls = .ok (e, rest)) :
    rest <:+ ls ∧ rest ≠ ls ∧ u.Ident e.name ∧ (e.size = 8 ∨ e.size = 16) ∧ (e.names.map (·.1)).Nodup := by
  cases ls with
  | nil => simp [parseEnum] at h
  | cons l ls =>
    simp only [parseEnum, Out.bind_eq_ok] at h
    obtain ⟨_, _, name, _, _, hn, width, _, size, hs, b, _, _, _, _, _, h⟩ := h
    have h0 : EnumInv ⟨name, size, [], []⟩ [] := ⟨rfl, rfl, by simp, by simp, by simp⟩
    obtain ⟨ws, k1, k2, k3, k4, k5⟩ := enumLoop_inv ls h0 h
    obtain ⟨q1, q2⟩ := enumLoop_rest ls h
    refine ⟨q1.trans (List.suffix_cons _ _), fun e => by have := q1.length_le; rw [e] at this; simp at this; omega,
      by rw [k3]; exact validateIdent_ok.1 hn, ?_, by rw [k1.names]; simpa [Function.comp_def] using k1.nodupNames⟩
    rw [k4]
    simp only [enumWidth] at hs
    split at hs
    · simp at hs; simp [← hs]
    · split at hs
      · simp at hs; simp [← hs]
      · simp at hs

/-! ## Files -/

/-- What is known of a file while it is read: `ls` are all its lines. -/
structure FileInv (u : Uni) (ls : List Line) (f : File) : Prop where
  nodup : (f.ctx.idents.map (·.1)).Nodup
  perm : (f.ctx.idents).Perm ((f.structs.map fun p => (p.1, Ident.struct)) ++ f.enums.map fun e => (e.name, Ident.enum e.size))
  names : ∀ p ∈ f.ctx.idents, u.Ident p.1
  enums : ∀ e ∈ f.enums, (e.size = 8 ∨ e.size = 16) ∧ (e.names.map (·.1)).Nodup
  fields : ∀ p ∈ f.structs, ∀ fld ∈ p.2, ∃ l ∈ ls, FromLine f.ctx.idents l fld

theorem fileLoop_inv {u : Uni} {all : List Line} : ∀ (fuel : Nat) {f f' : File} {ls : List Line}, FileInv u all f → ls <:+ all →
    fileLoop u fuel f ls = .ok f' → FileInv u all f' := by
  intro fuel
  induction fuel with
  | zero =>
    intro f f' ls hi _ h
    unfold fileLoop at h
    split at h
    · simp only [Out.ok.injEq] at h; exact h ▸ hi
    · simp at h
  | succ fuel ih =>
    intro f f' ls hi hls h
    cases ls with
    | nil => simp only [fileLoop, Out.ok.injEq] at h; exact h ▸ hi
    | cons l ls =>
      unfold fileLoop at h
      split at h
      · simp only [Out.ok.injEq] at h; exact h ▸ hi
      · simp only [Out.bind_eq_ok] at h
        obtain ⟨first, _, h⟩ := h
        split at h
        · exact ih hi ((List.suffix_cons _ _).trans hls) h
        · split at h
          · simp only [Out.bind_eq_ok, guard_ok, assocGet_none] at h
            obtain ⟨⟨e, rest⟩, h1, _, hn, h⟩ := h
            obtain ⟨q1, _, q2, q3, q4⟩ := parseEnum_facts h1
            refine ih ?_ (q1.trans hls) h
            simp only at hn
            constructor
            · simp only [assocSet_new hn, List.map_append, List.map_cons, List.map_nil]
              exact List.nodup_append.2 ⟨hi.nodup, by simp, by
                intro a ha b hb e; simp only [List.mem_singleton] at hb; subst e hb; exact hn ha⟩
            · simp only [assocSet_new hn, List.map_append, List.map_cons, List.map_nil, ← List.append_assoc]
              exact hi.perm.append_right _
            · intro p hp
              simp only [assocSet_new hn, List.mem_append, List.mem_singleton] at hp
              rcases hp with hp | rfl
              · exact hi.names p hp
              · exact q2
            · intro e' he
              simp only [List.mem_append, List.mem_singleton] at he
              rcases he with he | rfl
              · exact hi.enums e' he
              · exact ⟨q3, q4⟩
            · intro p hp fld hf
              obtain ⟨l', h1, h2⟩ := hi.fields p hp fld hf
              exact ⟨l', h1, h2.add hn⟩
          · split at h
            · simp only [Out.bind_eq_ok, guard_ok, assocGet_none] at h
              obtain ⟨⟨name, fs, c, rest⟩, h1, _, hn, h⟩ := h
              obtain ⟨q0, q1, _, q2, q3⟩ := parseStruct_from h1
              refine ih ?_ (q1.trans hls) h
              simp only at hn
              rw [← q0.1] at hn
              simp only [← q0.1]
              constructor
              · simp only [assocSet_new hn, List.map_append, List.map_cons, List.map_nil]
                exact List.nodup_append.2 ⟨hi.nodup, by simp, by
                  intro a ha b hb e; simp only [List.mem_singleton] at hb; subst e hb; exact hn ha⟩
              · simp only [assocSet_new hn, List.map_append, List.map_cons, List.map_nil]
                refine (hi.perm.append_right _).trans ?_
                simp only [List.append_assoc]
                exact List.Perm.append_left _ List.perm_append_comm
              · intro p hp
                simp only [assocSet_new hn, List.mem_append, List.mem_singleton] at hp
                rcases hp with hp | rfl
                · exact hi.names p hp
                · exact q2
              · exact hi.enums
              · intro p hp fld hf
                simp only [List.mem_append, List.mem_singleton] at hp
                rcases hp with hp | rfl
                · obtain ⟨l', h1, h2⟩ := hi.fields p hp fld hf
                  exact ⟨l', h1, h2.add hn⟩
                · obtain ⟨l', h1, h2⟩ := q3 fld hf
                  exact ⟨l', hls.subset h1, h2⟩
            · simp at h

theorem parseFile_inv {u : Uni} {imports : List Str} {ls : List Line} {f : File} (h : parseFile u imports ls = .ok f) :
    FileInv u ls f := by
  refine fileLoop_inv _ ?_ (List.suffix_refl _) h
  exact ⟨by simp, by simp, by simp, by simp, by simp⟩

end Claw.Idl
