import Verif.Lemmas.TokenMono

/-!
# Skipping passes over exactly the tokens of a value
-/

namespace Claw.Tok

open Claw.Idl (FT Out)

/-- Tokens that are neither start nor end of a struct. -/
def Flat (ts : List Token) : Prop := ∀ t ∈ ts, t.kind ≠ .structStart ∧ t.kind ≠ .structEnd

theorem skipDepth_other {d : Nat} {t : Token} {ts : List Token} (h1 : t.kind ≠ .structStart)
    (h2 : t.kind ≠ .structEnd) : skipDepth d (t :: ts) = skipDepth d ts := by
  rw [skipDepth.eq_def]
  cases hk : t.kind <;> simp_all

theorem skipDepth_start {d : Nat} {t : Token} {ts : List Token} (h : t.kind = .structStart) :
    skipDepth d (t :: ts) = skipDepth (d + 1) ts := by
  rw [skipDepth.eq_def]; simp only [h]

theorem skipDepth_end {d : Nat} {t : Token} {ts : List Token} (h : t.kind = .structEnd) :
    skipDepth (d + 1) (t :: ts) = skipDepth d ts := by
  rw [skipDepth.eq_def]; simp only [h]

theorem skipDepth_flat {a : List Token} (h : Flat a) (d : Nat) (ts : List Token) :
    skipDepth d (a ++ ts) = skipDepth d ts := by
  induction a with
  | nil => rfl
  | cons t a ih =>
    have ht := h t (by simp)
    rw [List.cons_append, skipDepth_other ht.1 ht.2]
    exact ih fun t hm => h t (by simp [hm])

theorem numTok_kind (n : Str) (t : FT) (e : Option EnumT) (d : UInt64) :
    (numTok n t e d).kind = .field := by
  cases e <;> rfl

theorem numTok_name (n : Str) (t : FT) (e : Option EnumT) (d : UInt64) :
    (numTok n t e d).name = n := by
  cases e <;> rfl

theorem entryTok_kind (n : Str) (k v : FT) (key : Key) : (entryTok n k v key).kind = .mapEntry := by
  cases key <;> rfl

theorem flat_listToks {name : Str} {t : FT} {e : Bool} {n : Nat} {items : List Token}
    (h : Flat items) : Flat (listToks name t e n items) := by
  unfold listToks
  split
  · intro t ht; simp at ht; subst ht; simp
  · intro t ht
    simp at ht
    rcases ht with rfl | rfl | ht | rfl
    · simp
    · simp
    · exact h t ht
    · simp

theorem flat_map {α : Type} (f : α → Token) (hf : ∀ a, (f a).kind = .field) (l : List α) :
    Flat (l.map f) := by
  intro t ht
  obtain ⟨a, _, rfl⟩ := List.mem_map.1 ht
  simp [hf]

/-- Tokens that leave the depth as it is. -/
def Even (ts : List Token) : Prop := ∀ d r, skipDepth d (ts ++ r) = skipDepth d r

theorem Even.append {a b : List Token} (ha : Even a) (hb : Even b) : Even (a ++ b) := by
  intro d r; rw [List.append_assoc, ha, hb]

theorem Even.flat {a : List Token} (h : Flat a) : Even a := fun d r => skipDepth_flat h d r

theorem Even.one (t : Token) (h : t.kind ≠ .structStart ∧ t.kind ≠ .structEnd) : Even [t] :=
  Even.flat fun t' ht => by simp at ht; subst ht; exact h

theorem Even.nil : Even [] := fun _ _ => rfl

theorem Even.wrap {a : List Token} (h : Even a) (b e : Token) (hb : b.kind = .structStart)
    (he : e.kind = .structEnd) : Even (b :: (a ++ [e])) := by
  intro d r
  rw [List.cons_append, skipDepth_start hb, List.append_assoc, h, List.singleton_append,
    skipDepth_end he]

theorem Even.cons {a : List Token} (h : Even a) (t : Token)
    (ht : t.kind ≠ .structStart ∧ t.kind ≠ .structEnd) : Even (t :: a) :=
  (Even.one t ht).append h

theorem Even.listToks {name : Str} {t : FT} {e : Bool} {n : Nat} {items : List Token}
    (h : Even items) : Even (listToks name t e n items) := by
  unfold Tok.listToks
  split
  · exact Even.one _ (by simp)
  · exact ((h.append (Even.one _ (by simp))).cons _ (by simp)).cons _ (by simp)

mutual

theorem even_walk (env : Env) (s : Nat) (v : Val) : Even (walk env s v) := by
  cases v <;> simp only [walk] <;> try exact Even.nil
  case obj fs => exact (even_fields env _ fs).wrap _ _ rfl rfl

theorem even_fields (env : Env) (ds : List Decl) (vs : List Val) : Even (walkFields env ds vs) := by
  cases ds with
  | nil => simp only [walkFields]; exact Even.nil
  | cons d ds =>
    cases vs with
    | nil => simp only [walkFields]; exact Even.nil
    | cons v vs =>
      simp only [walkFields]
      exact (even_field env _ _ v).append (even_fields env ds vs)

theorem even_field (env : Env) (name : Str) (ty : Ty) (v : Val) : Even (walkField env name ty v) := by
  cases v <;> cases ty <;> simp only [walkField] <;> try exact Even.nil
  all_goals first
    | exact Even.one _ (by simp [numTok_kind])
    | exact Even.one _ (by simp)
    | exact Even.flat (flat_listToks (flat_map _ (fun _ => numTok_kind _ _ _ _) _))
    | exact Even.flat (flat_listToks (flat_map _ (fun _ => rfl) _))
    | skip
  · rename_i fs s
    exact ((even_fields env _ fs).wrap _ _ rfl rfl).cons _ (by simp)
  · rename_i l s
    exact (even_items env s l).listToks
  · rename_i ks vs k v
    split
    · exact Even.one _ (by simp)
    · exact (((even_entries env name k v ks vs).append (Even.one _ (by simp))).cons _ (by simp)).cons _
        (by simp)

theorem even_items (env : Env) (s : Nat) (l : List Val) : Even (walkItems env s l) := by
  cases l with
  | nil => simp only [walkItems]; exact Even.nil
  | cons v l =>
    simp only [walkItems]
    exact (even_walk env s v).append (even_items env s l)

theorem even_entries (env : Env) (name : Str) (k : FT) (v : MTy) (ks : List Key) (vs : List Val) :
    Even (walkEntries env name k v ks vs) := by
  cases ks with
  | nil => simp only [walkEntries]; exact Even.nil
  | cons key ks =>
    cases vs with
    | nil => simp only [walkEntries]; exact Even.nil
    | cons x vs =>
      simp only [walkEntries]
      exact (even_entry env name k v key x).append (even_entries env name k v ks vs)

theorem even_entry (env : Env) (name : Str) (k : FT) (v : MTy) (key : Key) (x : Val) :
    Even (walkEntry env name k v key x) := by
  have h1 : Even [entryTok name k v.ft key] := Even.one _ (by simp [entryTok_kind])
  cases x <;> simp only [walkEntry]
  case null | nums | bins | list | map => exact h1
  case num => cases v <;> simp only <;> first | exact h1 | exact Even.one _ (by simp [entryTok_kind])
  case bin => cases v <;> simp only <;> first | exact h1 | exact Even.one _ (by simp [entryTok_kind])
  case any => cases v <;> simp only <;> first | exact h1 | exact Even.one _ (by simp [entryTok_kind])
  case obj fs =>
    cases v <;> simp only <;> try exact h1
    exact ((even_fields env _ fs).wrap _ _ rfl rfl).cons _ (by simp [entryTok_kind])
  case anys l =>
    cases v <;> simp only <;> try exact h1
    apply Even.cons _ _ (by simp [entryTok_kind])
    unfold anyToks
    exact ((Even.flat (flat_map _ (fun _ => rfl) l)).append (Even.one _ (by simp))).cons _ (by simp)

end

theorem skipStruct_obj (env : Env) (s : Nat) (fs : List Val) (ts : List Token) :
    skipStruct (walk env s (.obj fs) ++ ts) = .ok ts := by
  simp only [walk, List.cons_append, skipStruct]
  rw [if_neg (by simp), List.append_assoc, even_fields]
  simp [skipDepth]

theorem skipToListEnd_fields {items : List Token} (h : ∀ t ∈ items, t.kind = .field) (e : Token)
    (he : e.kind = .listEnd) (ts : List Token) : skipToListEnd (items ++ e :: ts) = .ok ts := by
  induction items with
  | nil => simp [skipToListEnd, he]
  | cons t items ih =>
    rw [List.cons_append, skipToListEnd, if_neg (by simp [h t])]
    exact ih fun t ht => h t (by simp [ht])

theorem skipStructs_items {env : Env} {s : Nat} {l : List Val} (h : FitsItems env s l) (e : Token)
    (he : e.kind = .listEnd) : ∀ n, l.length + 1 ≤ n → ∀ ts,
    skipStructs n (walkItems env s l ++ e :: ts) = .ok ts := by
  induction l with
  | nil =>
    intro n hn ts
    obtain ⟨n, rfl⟩ := Nat.exists_eq_add_of_le' hn
    simp [walkItems, skipStructs, he]
  | cons v l ih =>
    intro n hn ts
    cases h with
    | cons hfs hl =>
      rename_i fs
      simp only [List.length_cons] at hn
      obtain ⟨n, rfl⟩ : ∃ m, n = m + 1 := ⟨n - 1, by omega⟩
      have := skipStruct_obj env s fs (walkItems env s l ++ e :: ts)
      simp only [walkItems, walk] at this ⊢
      simp only [List.cons_append, List.append_assoc] at this ⊢
      rw [skipStructs, if_neg (by simp), this]
      exact ih hl n (by omega) ts

theorem skipEntries_ok {env : Env} {name : Str} {k : FT} {v : MTy} (hv : v ≠ .listAny) (e : Token)
    (he : e.kind = .mapEnd) : ∀ (ks : List Key) (vs : List Val), FitsVals env v ks vs →
    ∀ n, ks.length + 1 ≤ n → ∀ ts,
    skipEntries n v.ft (walkEntries env name k v ks vs ++ e :: ts) = .ok ts := by
  intro ks
  induction ks with
  | nil =>
    intro vs _ n hn ts
    obtain ⟨n, rfl⟩ := Nat.exists_eq_add_of_le' hn
    simp [walkEntries, skipEntries, he]
  | cons key ks ih =>
    intro vs h n hn ts
    cases h with
    | cons hx hvs =>
      rename_i x vs
      simp only [List.length_cons] at hn
      obtain ⟨n, rfl⟩ : ∃ m, n = m + 1 := ⟨n - 1, by omega⟩
      have ih := ih vs hvs n (by omega) ts
      have hn1 : ∀ t : Token, t.kind = .mapEntry → ¬ t.kind = .mapEnd := by intro t h; simp [h]
      have hn2 : ∀ t : Token, t.kind = .mapEntry → ¬ t.kind ≠ .mapEntry := by intro t h; simp [h]
      simp only [walkEntries]
      cases hx with
      | @num t d ht =>
        simp only [walkEntry, List.cons_append, List.nil_append, List.append_assoc]
        rw [skipEntries, if_neg (hn1 _ (by simp [entryTok_kind])),
          if_neg (hn2 _ (by simp [entryTok_kind])), if_neg, if_neg]
        · exact ih
        · cases t <;> simp [MTy.ft, Holds] at ht ⊢
        · cases t <;> simp [MTy.ft, Holds] at ht ⊢
      | str =>
        simp only [walkEntry, List.cons_append, List.nil_append, List.append_assoc]
        rw [skipEntries, if_neg (hn1 _ (by simp [entryTok_kind])),
          if_neg (hn2 _ (by simp [entryTok_kind])), if_neg (by simp [MTy.ft]), if_neg (by simp [MTy.ft])]
        exact ih
      | any =>
        simp only [walkEntry, List.cons_append, List.nil_append, List.append_assoc]
        rw [skipEntries, if_neg (hn1 _ (by simp [entryTok_kind])),
          if_neg (hn2 _ (by simp [entryTok_kind])), if_neg (by simp [MTy.ft]), if_neg (by simp [MTy.ft])]
        exact ih
      | listAny => exact absurd rfl hv
      | @struct s fs hfs =>
        have hs := skipStruct_obj env s fs (walkEntries env name k (.struct s) ks vs ++ e :: ts)
        simp only [walk] at hs
        simp only [List.cons_append, List.append_assoc] at hs
        simp only [walkEntry, List.cons_append, List.append_assoc]
        rw [skipEntries, if_neg (hn1 _ (by simp [entryTok_kind])),
          if_neg (hn2 _ (by simp [entryTok_kind])), if_pos (by simp [MTy.ft]), hs]
        exact ih

/-- Every field begins with a token of its name. -/
theorem walkField_cons {env : Env} {name : Str} {ty : Ty} {v : Val} (h : Fits env ty v) :
    ∃ tok rest, walkField env name ty v = tok :: rest ∧ tok.kind = .field ∧ tok.name = name := by
  cases h <;> simp only [walkField, listToks]
  case num => exact ⟨_, _, rfl, numTok_kind _ _ _ _, numTok_name _ _ _ _⟩
  all_goals first
    | exact ⟨_, _, rfl, rfl, rfl⟩
    | (split <;> exact ⟨_, _, rfl, rfl, rfl⟩)

/-- A skippable field is skipped as a whole. -/
theorem skip_field {env : Env} {name : Str} {ty : Ty} {v : Val} (h : Fits env ty v) (hs : Skips ty v)
    {tok : Token} {rest : List Token} (hw : walkField env name ty v = tok :: rest) :
    ∃ N, ∀ n, N ≤ n → ∀ ts, skipValue n tok (rest ++ ts) = .ok ts := by
  cases h <;> simp only [walkField, listToks] at hw
  case num t e d ht =>
    simp only [List.cons.injEq] at hw
    obtain ⟨rfl, rfl⟩ := hw
    refine ⟨0, fun n _ ts => ?_⟩
    have : (numTok name t e d).type = t := by cases e <;> rfl
    unfold skipValue
    rw [this]
    cases t <;> simp [Holds] at ht ⊢
  case str | bytes | noAny | any =>
    simp only [List.cons.injEq] at hw
    obtain ⟨rfl, rfl⟩ := hw
    exact ⟨0, fun n _ ts => rfl⟩
  case nil =>
    simp only [List.cons.injEq] at hw
    obtain ⟨rfl, rfl⟩ := hw
    exact ⟨0, fun n _ ts => rfl⟩
  case obj s fs hfs =>
    simp only [List.cons.injEq] at hw
    obtain ⟨rfl, rfl⟩ := hw
    refine ⟨0, fun n _ ts => ?_⟩
    exact skipStruct_obj env s fs ts
  case nums t e ds hds =>
    have hlist : ∀ n b ts, ds ≠ [] → skipValue n
        { kind := .field, name, type := listOf t, isNil := b, isEnum := e.isSome } ts = if b then .ok ts else skipList ts := by
      intro n b ts hne
      obtain ⟨d, hd⟩ := List.exists_mem_of_ne_nil _ hne
      have := hds d hd
      cases t <;> simp [Holds] at this <;> rfl
    have hnil : ∀ n ts,  skipValue n
        { kind := .field, name, type := listOf t, isNil := true, isEnum := e.isSome } ts = .ok ts := by
      intro n ts
      cases t <;> rfl
    split at hw
    · simp only [List.cons.injEq] at hw
      obtain ⟨rfl, rfl⟩ := hw
      exact ⟨0, fun n _ ts => hnil _ _⟩
    · rename_i hne
      simp only [List.cons.injEq] at hw
      obtain ⟨rfl, rfl⟩ := hw
      refine ⟨0, fun n _ ts => ?_⟩
      rw [hlist n false _ (by intro h; simp [h] at hne)]
      simp only [List.cons_append, List.append_assoc, skipList]
      exact skipToListEnd_fields (fun t ht => by
        obtain ⟨a, _, rfl⟩ := List.mem_map.1 ht; exact numTok_kind _ _ _ _) _ rfl _
  case strs | binaries =>
    split at hw
    · simp only [List.cons.injEq] at hw
      obtain ⟨rfl, rfl⟩ := hw
      exact ⟨0, fun n _ ts => rfl⟩
    · simp only [List.cons.injEq] at hw
      obtain ⟨rfl, rfl⟩ := hw
      refine ⟨0, fun n _ ts => ?_⟩
      simp only [skipValue, List.cons_append, List.append_assoc, skipList]
      exact skipToListEnd_fields (fun t ht => by
        obtain ⟨a, _, rfl⟩ := List.mem_map.1 ht; rfl) _ rfl _
  case list s l hl =>
    split at hw
    · simp only [List.cons.injEq] at hw
      obtain ⟨rfl, rfl⟩ := hw
      exact ⟨0, fun n _ ts => rfl⟩
    · simp only [List.cons.injEq] at hw
      obtain ⟨rfl, rfl⟩ := hw
      refine ⟨l.length + 1, fun n hn ts => ?_⟩
      simp only [skipValue, List.cons_append, List.append_assoc, skipListStructs]
      exact skipStructs_items hl _ rfl n hn ts
  case map k v ks vs hk hr hv =>
    split at hw
    · simp only [List.cons.injEq] at hw
      obtain ⟨rfl, rfl⟩ := hw
      exact ⟨0, fun n _ ts => rfl⟩
    · rename_i hne
      simp only [List.cons.injEq] at hw
      obtain ⟨rfl, rfl⟩ := hw
      refine ⟨ks.length + 2, fun n hn ts => ?_⟩
      obtain ⟨n, rfl⟩ : ∃ m, n = m + 1 := ⟨n - 1, by omega⟩
      simp only [skipValue, List.cons_append, List.append_assoc, skipMap]
      have hv' : v ≠ .listAny := by
        rintro rfl
        simp only [Skips, Val.map.injEq] at hs
        exact hne hs.1
      exact skipEntries_ok hv' _ rfl ks vs hv n (by omega) ts
  case anys l hl =>
    simp only [Skips, Val.anys.injEq] at hs
    subst hs
    simp only [List.length_nil, if_true, List.cons.injEq] at hw
    obtain ⟨rfl, rfl⟩ := hw
    exact ⟨0, fun n _ ts => rfl⟩

end Claw.Tok
