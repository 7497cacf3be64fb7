import Verif.Lemmas.TokenSkip

/-!
# What Ingest makes of the tokens of a value
-/

namespace Claw.Tok

open Claw.Idl (FT Out)

/-! ### Adding a value to the one that is there -/

/-- The fields of a struct after the named values were ingested. -/
def mergeFields (ds : List Decl) (x : List Val) : List (Str × Val) → List Val
  | [] => x
  | (n, v) :: named =>
    match fieldIdx ds n with
    | some i =>
      match ds[i]?, x[i]? with
      | some d, some old => mergeFields ds (x.set i (merge d.ty old v)) named
      | _, _ => mergeFields ds x named
    | none => mergeFields ds x named

/-- The list and map fields hold lists and maps. -/
def Shape : Ty → Val → Prop
  | .listNum _ _, v => ∃ ds, v = .nums ds
  | .listStr, v => ∃ bs, v = .bins bs
  | .listBytes, v => ∃ bs, v = .bins bs
  | .listStruct _, v => ∃ l, v = .list l
  | .map _ _, v => ∃ ks vs, v = .map ks vs
  | _, _ => True

/-- A struct with values of the right shape. -/
def ShapeAll (ds : List Decl) (x : List Val) : Prop :=
  x.length = ds.length ∧
    ∀ (i : Nat) (d : Decl) (o : Val), ds[i]? = some d → x[i]? = some o → Shape d.ty o

theorem shape_default (ty : Ty) : Shape ty ty.default := by
  cases ty <;> simp [Shape, Ty.default]

theorem shapeAll_fresh (env : Env) (s : Nat) : ShapeAll (env s) (fresh env s) := by
  refine ⟨by simp [fresh], fun i d o hd ho => ?_⟩
  simp [fresh, hd] at ho
  subst ho
  exact shape_default _

/-! ### Finding a field by name -/

theorem fieldIdx_some {ds : List Decl} {n : Str} {i : Nat} (h : fieldIdx ds n = some i) :
    ∃ d, ds[i]? = some d ∧ d.name = n := by
  unfold fieldIdx at h
  rw [List.findIdx?_eq_some_iff_getElem] at h
  obtain ⟨hi, hp, _⟩ := h
  exact ⟨ds[i], by simp [hi], by simpa using hp⟩

theorem fieldIdx_known {ds : List Decl} {n : Str} (h : Known ds n) : ∃ i, fieldIdx ds n = some i := by
  cases hf : fieldIdx ds n with
  | some i => exact ⟨i, rfl⟩
  | none =>
    unfold fieldIdx at hf
    rw [List.findIdx?_eq_none_iff] at hf
    obtain ⟨d, hd, hn⟩ := h
    simpa [hn] using hf d hd

theorem fieldIdx_unknown {ds : List Decl} {n : Str} (h : ¬ Known ds n) : fieldIdx ds n = none := by
  cases hf : fieldIdx ds n with
  | none => rfl
  | some i =>
    obtain ⟨d, hd, hn⟩ := fieldIdx_some hf
    exact absurd ⟨d, List.mem_of_getElem? hd, hn⟩ h

theorem set_map {ds : List Decl} (hnd : (ds.map (·.name)).Nodup) {n : Str} {i : Nat} {d : Decl}
    (hd : ds[i]? = some d) (hn : d.name = n) (f : Decl → Val) (v : Val) :
    (ds.map f).set i v = ds.map fun d' => if d'.name = n then v else f d' := by
  apply List.ext_getElem?
  intro j
  rw [List.getElem?_set]
  split
  · rename_i hij
    subst hij
    have hi : i < ds.length := (List.getElem?_eq_some_iff.1 hd).1
    rw [List.getElem?_map, hd]
    simp [hi, hn]
  · rename_i hij
    simp only [List.getElem?_map]
    cases hj : ds[j]? with
    | none => rfl
    | some d' =>
      simp only [Option.map_some]
      have : d'.name ≠ n := by
        intro he
        apply hij
        have h1 : (ds.map (·.name))[i]? = some n := by simp [hd, hn]
        have h2 : (ds.map (·.name))[j]? = some n := by simp [hj, he]
        obtain ⟨hi, e1⟩ := List.getElem?_eq_some_iff.1 h1
        obtain ⟨hj', e2⟩ := List.getElem?_eq_some_iff.1 h2
        exact (List.getElem_inj hnd).1 (by rw [e1, e2])
      simp [this]

theorem mergeFields_map {ds : List Decl} (hnd : (ds.map (·.name)).Nodup) :
    ∀ (named : List (Str × Val)), (named.map (·.1)).Nodup → ∀ (f : Decl → Val),
    mergeFields ds (ds.map f) named = ds.map fun d =>
      match named.find? fun p => p.1 = d.name with
      | some p => merge d.ty (f d) p.2
      | none => f d := by
  intro named
  induction named with
  | nil => intro _ f; simp [mergeFields]
  | cons p named ih =>
    intro hn f
    obtain ⟨n, v⟩ := p
    simp only [List.map_cons, List.nodup_cons] at hn
    simp only [mergeFields]
    cases hf : fieldIdx ds n with
    | none =>
      simp only
      rw [ih hn.2 f]
      apply List.map_congr_left
      intro d hd
      have : d.name ≠ n := by
        intro he
        obtain ⟨i, hi⟩ := fieldIdx_known (ds := ds) (n := n) ⟨d, hd, he⟩
        rw [hf] at hi; simp at hi
      rw [List.find?_cons_of_neg (by simpa using fun h => this h.symm)]
    | some i =>
      obtain ⟨d, hd, hdn⟩ := fieldIdx_some hf
      have hx : (ds.map f)[i]? = some (f d) := by simp [hd]
      simp only [hd, hx]
      rw [set_map hnd hd hdn, ih hn.2]
      apply List.map_congr_left
      intro d' hd'
      by_cases he : d'.name = n
      · have hdd : d' = d := by
          obtain ⟨j, hj, hj'⟩ := List.getElem_of_mem hd'
          have h2 : (ds.map (·.name))[j]? = some n := by simp [hj, hj', he]
          have h1 : (ds.map (·.name))[i]? = some n := by simp [hd, hdn]
          obtain ⟨hi, e1⟩ := List.getElem?_eq_some_iff.1 h1
          obtain ⟨hj'', e2⟩ := List.getElem?_eq_some_iff.1 h2
          have := (List.getElem_inj hnd).1 (e1.trans e2.symm)
          subst this
          rw [List.getElem?_eq_getElem hj] at hd
          rw [← hj']; exact Option.some.inj hd
        subst hdd
        have hnone : named.find? (fun p => decide (p.1 = d'.name)) = none := by
          rw [List.find?_eq_none]
          intro p hp
          simp only [decide_eq_true_eq]
          intro h'
          exact hn.1 (List.mem_map.2 ⟨p, hp, by rw [h', he]⟩)
        rw [hnone, List.find?_cons_of_pos (by simp [he])]
        simp [he]
      · rw [List.find?_cons_of_neg (by simpa using fun h => he h.symm)]
        simp [he]

/-- Into a new struct, the fields are filled by name. -/
theorem mergeFields_fresh {env : Env} {s : Nat} (hnd : Distinct env) {named : List (Str × Val)}
    (hn : (named.map (·.1)).Nodup)
    (hs : ∀ d ∈ env s, ∀ p ∈ named, p.1 = d.name → merge d.ty d.ty.default p.2 = p.2) :
    mergeFields (env s) (fresh env s) named = readAs (env s) named := by
  unfold fresh readAs
  rw [mergeFields_map (hnd s) named hn]
  apply List.map_congr_left
  intro d hd
  cases hf : named.find? (fun p => decide (p.1 = d.name)) with
  | none => rfl
  | some p =>
    have hp := List.find?_some hf
    have hm := List.mem_of_find?_eq_some hf
    simp only [Option.map_some, Option.getD_some]
    exact hs d hd p hm (by simpa using hp)

/-! ### Maps -/

theorem mapSet_last {k : FT} {key : Key} {v : Val} : ∀ {ks : List Key} {vs : List Val},
    ks.length = vs.length → (∀ a ∈ ks, keyCmp k a key < 0) →
    mapSet k key v ks vs = (ks ++ [key], vs ++ [v]) := by
  intro ks
  induction ks with
  | nil => intro vs hl _; cases vs <;> simp_all [mapSet]
  | cons a ks ih =>
    intro vs hl h
    cases vs with
    | nil => simp at hl
    | cons x vs =>
      simp only [mapSet]
      rw [if_pos (h a (by simp)), ih (by simpa using hl) fun b hb => h b (by simp [hb])]
      rfl

theorem mergeMap_append {k : FT} : ∀ {ks' : List Key} {vs' : List Val} {ks : List Key} {vs : List Val},
    ks.length = vs.length → ks'.length = vs'.length → Rising k (ks ++ ks') →
    mergeMap k ks' vs' (.map ks vs) = .map (ks ++ ks') (vs ++ vs') := by
  intro ks'
  induction ks' with
  | nil => intro vs' ks vs _ hl _; cases vs' <;> simp_all [mergeMap]
  | cons key ks' ih =>
    intro vs' ks vs hl hl' hr
    cases vs' with
    | nil => simp at hl'
    | cons v vs' =>
      simp only [mergeMap, mapPut]
      rw [mapSet_last hl]
      · simp only
        rw [ih (by simp [hl]) (by simpa using hl') (by simpa using hr)]
        simp
      · intro a ha
        exact (List.pairwise_append.1 hr).2.2 a ha key (by simp)

theorem mergeMap_empty {k : FT} {ks : List Key} {vs : List Val} (hl : ks.length = vs.length)
    (hr : Rising k ks) : mergeMap k ks vs (.map [] []) = .map ks vs := by
  have := mergeMap_append (k := k) (ks := []) (vs := []) rfl hl (by simpa using hr)
  simpa using this

theorem fitsVals_length {env : Env} {v : MTy} {ks : List Key} {vs : List Val}
    (h : FitsVals env v ks vs) : ks.length = vs.length := by
  induction ks generalizing vs with
  | nil => cases h; rfl
  | cons k ks ih => cases h with
    | cons _ h => simp [ih h]

theorem viewItems_length (old new : Env) (s : Nat) (l : List Val) :
    (viewItems old new s l).length = l.length := by
  induction l with
  | nil => simp [viewItems]
  | cons v l ih => simp [viewItems, ih]

/-- Ingesting into a new field gives the value itself. -/
theorem settles {old new : Env} {ty : Ty} {v : Val} (h : Fits new ty v) :
    merge ty ty.default (view old new ty v) = view old new ty v := by
  cases h <;> try rfl
  case map k v ks vs hk hr hv =>
    have hl := fitsVals_length hv
    have h1 : view old new (.map k v) (.map ks vs) = .map ks vs ∨
        ∃ s, view old new (.map k v) (.map ks vs) = .map ks (viewItems old new s vs) := by
      cases v <;> simp only [view] <;> first | exact .inl rfl | exact .inl trivial | exact .inr ⟨_, rfl⟩
    rcases h1 with h1 | ⟨s, h1⟩ <;> rw [h1] <;> simp only [merge, Ty.default]
    · exact mergeMap_empty hl hr
    · exact mergeMap_empty (by rw [viewItems_length]; exact hl) hr
  case anys l hl =>
    simp only [merge, view, Ty.default]
    split
    · rename_i he; rw [he]
    · rfl

theorem viewFields_names (old new : Env) : ∀ (ds : List Decl) (vs : List Val), FitsAll new ds vs →
    (viewFields old new ds vs).map (·.1) = ds.map (·.name) := by
  intro ds
  induction ds with
  | nil => intro vs _; cases vs <;> simp [viewFields]
  | cons d ds ih =>
    intro vs h
    cases h with
    | cons _ h => simp [viewFields, ih _ h]

theorem viewFields_mem {old new : Env} : ∀ {ds : List Decl} {vs : List Val}, FitsAll new ds vs →
    ∀ {p : Str × Val}, p ∈ viewFields old new ds vs →
    ∃ d ∈ ds, ∃ v, Fits new d.ty v ∧ p = (d.name, view old new d.ty v) := by
  intro ds
  induction ds with
  | nil => intro vs _ p hp; cases vs <;> simp [viewFields] at hp
  | cons d ds ih =>
    intro vs h p hp
    cases h with
    | cons hv h =>
      simp only [viewFields, List.mem_cons] at hp
      rcases hp with rfl | hp
      · exact ⟨d, by simp, _, hv, rfl⟩
      · obtain ⟨d', hd', v', h1, h2⟩ := ih h hp
        exact ⟨d', by simp [hd'], v', h1, h2⟩

/-- A struct read into a new one. -/
theorem mergeFields_view {old new : Env} (ho : Distinct old) (hn : Distinct new) (ha : Agree old new)
    {s : Nat} {fs : List Val} (h : FitsAll new (new s) fs) :
    mergeFields (old s) (fresh old s) (viewFields old new (new s) fs) =
      readAs (old s) (viewFields old new (new s) fs) := by
  apply mergeFields_fresh ho
  · rw [viewFields_names _ _ _ _ h]; exact hn s
  · intro d hd p hp he
    obtain ⟨d', hd', v, hv, rfl⟩ := viewFields_mem h hp
    rw [ha s d hd d' hd' he.symm]
    exact settles hv

theorem shape_merge {old new : Env} {ty : Ty} {x v : Val} (hx : Shape ty x) (hf : Fits new ty v) :
    Shape ty (merge ty x (view old new ty v)) := by
  cases hf <;> simp only [Shape] at hx ⊢
  case nums => obtain ⟨ds, rfl⟩ := hx; simp [merge, view, appendNums]
  case strs => obtain ⟨ds, rfl⟩ := hx; simp [merge, view, appendBins]
  case binaries => obtain ⟨ds, rfl⟩ := hx; simp [merge, view, appendBins]
  case list => obtain ⟨ds, rfl⟩ := hx; simp [merge, view, appendAll]
  case map k v ks vs _ _ _ =>
    have h1 : ∀ (ks : List Key) (vs : List Val) (x : Val), (∃ ks vs, x = .map ks vs) →
        ∃ ks' vs', mergeMap k ks vs x = .map ks' vs' := by
      intro ks
      induction ks with
      | nil => intro vs x h; simpa [mergeMap] using h
      | cons a ks ih =>
        intro vs x h
        cases vs with
        | nil => simpa [mergeMap] using h
        | cons b vs =>
          obtain ⟨p, q, rfl⟩ := h
          exact ih vs _ ⟨_, _, rfl⟩
    have h2 : ∃ vs', view old new (.map k v) (.map ks vs) = .map ks vs' := by
      cases v <;> simp [view]
    obtain ⟨vs', h2⟩ := h2
    rw [h2]
    exact h1 ks vs' x hx

theorem shapeAll_set {ds : List Decl} {x : List Val} {i : Nat} {d : Decl} {v : Val}
    (h : ShapeAll ds x) (hd : ds[i]? = some d) (hv : Shape d.ty v) : ShapeAll ds (x.set i v) := by
  refine ⟨by simp [h.1], fun j d' o hd' ho => ?_⟩
  rw [List.getElem?_set] at ho
  split at ho
  · rename_i hij
    subst hij
    split at ho
    · rw [hd] at hd'
      simp at hd' ho
      subst hd' ho
      exact hv
    · simp at ho
  · exact h.2 j d' o hd' ho

/-! ### Reading lists -/

theorem listItems_fields {items : List Token} (h : ∀ t ∈ items, t.kind = .field) (e : Token)
    (he : e.kind = .listEnd) (ts : List Token) : listItems (items ++ e :: ts) = .ok (items, ts) := by
  induction items with
  | nil => simp [listItems, he]
  | cons t items ih =>
    rw [List.cons_append, listItems, if_neg (by simp [h t]), ih fun t ht => h t (by simp [ht])]

theorem readList_fields {items : List Token} (h : ∀ t ∈ items, t.kind = .field) (b e : Token)
    (hb : b.kind = .listStart) (he : e.kind = .listEnd) (ts : List Token) :
    readList (b :: (items ++ e :: ts)) = .ok (items, ts) := by
  simp only [readList]
  rw [if_neg (by simp [hb]), listItems_fields h e he]

theorem tokNum_numTok {name : Str} {t : FT} {e : Option EnumT} {d : UInt64} (h : Holds t d) :
    tokNum t e (numTok name t e d) = d := by
  cases e <;> simp [tokNum, numTok, norm_holds h]

theorem tokNum_map {t : FT} {e : Option EnumT} {ds : List UInt64} (h : ∀ d ∈ ds, Holds t d) :
    (ds.map (numTok [] t e)).map (tokNum t e) = ds := by
  rw [List.map_map]
  conv => rhs; rw [← List.map_id ds]
  apply List.map_congr_left
  intro d hd
  exact tokNum_numTok (h d hd)

theorem tokKey_entry {name : Str} {k v : FT} {key : Key} (h : KeyFits k key) :
    tokKey k (entryTok name k v key) = key := by
  cases key with
  | num d =>
    simp only [KeyFits] at h
    cases k <;> simp only [Holds] at h <;> simp only [tokKey, entryTok]
    all_goals rw [norm_holds]; simp [Holds]
    all_goals exact h
  | str b => simp only [KeyFits] at h; subst h; rfl

end Claw.Tok
