import Verif.Lemmas.TokenIngest

/-!
# Reading with the same declarations; what is refused
-/

namespace Claw.Tok

open Claw.Idl (FT Out)

/-- In a list without repetitions of `f`, two places with the same `f` are one. -/
theorem nodup_inj {α β : Type} {f : α → β} {l : List α} (h : (l.map f).Nodup) {i j : Nat} {a b : α}
    (hi : l[i]? = some a) (hj : l[j]? = some b) (he : f a = f b) : i = j := by
  have h1 : (l.map f)[i]? = some (f a) := by rw [List.getElem?_map, hi]; rfl
  have h2 : (l.map f)[j]? = some (f b) := by rw [List.getElem?_map, hj]; rfl
  obtain ⟨hi, e1⟩ := List.getElem?_eq_some_iff.1 h1
  obtain ⟨hj', e2⟩ := List.getElem?_eq_some_iff.1 h2
  exact (List.getElem_inj h).1 (by rw [e1, e2, he])

theorem nodup_eq {α β : Type} {f : α → β} {l : List α} (h : (l.map f).Nodup) {a b : α}
    (ha : a ∈ l) (hb : b ∈ l) (he : f a = f b) : a = b := by
  obtain ⟨i, hi⟩ := List.mem_iff_getElem?.1 ha
  obtain ⟨j, hj⟩ := List.mem_iff_getElem?.1 hb
  have := nodup_inj h hi hj he
  subst this
  rw [hi] at hj
  exact Option.some.inj hj

theorem agree_self {env : Env} (hd : Distinct env) : Agree env env := by
  intro s d h d' h' he
  rw [nodup_eq (hd s) h h' he]

theorem fits_shape {env : Env} {ty : Ty} {v : Val} (h : Fits env ty v) : Shape ty v := by
  cases h <;> simp [Shape]

theorem fitsAll_shape {env : Env} : ∀ {ds : List Decl} {x : List Val}, FitsAll env ds x → ShapeAll ds x := by
  intro ds
  induction ds with
  | nil => intro x h; cases h; exact ⟨rfl, by simp⟩
  | cons d ds ih =>
    intro x h
    cases h with
    | cons hv h =>
      obtain ⟨h1, h2⟩ := ih h
      refine ⟨by simp [h1], fun i d' o hd' ho => ?_⟩
      cases i with
      | zero =>
        simp at hd' ho
        subst hd' ho
        exact fits_shape hv
      | succ i => exact h2 i d' o (by simpa using hd') (by simpa using ho)

theorem fitsAll_get {env : Env} : ∀ {ds : List Decl} {fs : List Val}, FitsAll env ds fs →
    ∀ {i : Nat} {d : Decl} {v : Val}, ds[i]? = some d → fs[i]? = some v → Fits env d.ty v := by
  intro ds
  induction ds with
  | nil => intro fs _ i d v h; simp at h
  | cons e ds ih =>
    intro fs h i d v h1 h2
    cases h with
    | cons hv h =>
      cases i with
      | zero => simp at h1 h2; subst h1 h2; exact hv
      | succ i => exact ih h (by simpa using h1) (by simpa using h2)

theorem readAs_zip : ∀ (ds : List Decl) (vs : List Val), (ds.map (·.name)).Nodup →
    ds.length = vs.length → ∀ (g : Decl → Val → Val),
    (ds.map fun d => (((ds.zip vs).map fun p => (p.1.name, g p.1 p.2)).find? fun p => p.1 = d.name
      ).map (·.2) |>.getD d.ty.default) = (ds.zip vs).map fun p => g p.1 p.2 := by
  intro ds
  induction ds with
  | nil => intro vs _ _ g; simp
  | cons d ds ih =>
    intro vs hnd hl g
    cases vs with
    | nil => simp at hl
    | cons v vs =>
      simp only [List.map_cons, List.nodup_cons] at hnd
      simp only [List.map_cons, List.zip_cons_cons]
      rw [List.find?_cons_of_pos (by simp)]
      simp only [Option.map_some, Option.getD_some, List.cons.injEq, true_and]
      rw [← ih vs hnd.2 (by simpa using hl) g]
      apply List.map_congr_left
      intro d' hd'
      rw [List.find?_cons_of_neg]
      simp only [decide_eq_true_eq]
      intro he
      exact hnd.1 (List.mem_map.2 ⟨d', hd', he.symm⟩)

theorem viewFields_zip (old new : Env) : ∀ (ds : List Decl) (vs : List Val),
    viewFields old new ds vs = (ds.zip vs).map fun p => (p.1.name, view old new p.1.ty p.2) := by
  intro ds
  induction ds with
  | nil => intro vs; cases vs <;> simp [viewFields]
  | cons d ds ih => intro vs; cases vs <;> simp [viewFields, ih]

theorem fitsAll_length {env : Env} {ds : List Decl} {vs : List Val} (h : FitsAll env ds vs) :
    ds.length = vs.length := by
  induction vs generalizing ds with
  | nil => cases h; rfl
  | cons v vs ih => cases h with
    | cons _ h => simp [ih h]

theorem readAs_self {env : Env} (hd : Distinct env) {s : Nat} {fs : List Val}
    (h : FitsAll env (env s) fs)
    (hv : ((env s).zip fs).map (fun p => view env env p.1.ty p.2) = fs) :
    readAs (env s) (viewFields env env (env s) fs) = fs := by
  unfold readAs
  rw [viewFields_zip, readAs_zip _ _ (hd s) (fitsAll_length h) fun d v => view env env d.ty v]
  exact hv

mutual

theorem view_self {env : Env} (hd : Distinct env) {ty : Ty} (v : Val) (h : Fits env ty v) :
    view env env ty v = v := by
  cases v with
  | obj fs =>
    cases h with
    | @obj s _ h =>
      simp only [view]
      rw [readAs_self hd h (view_fields hd (env s) fs h)]
  | list l =>
    cases h with
    | list h => simp only [view]; rw [view_items hd l h]
  | map ks vs =>
    cases h with
    | @map k mv _ _ hk hr hv =>
      cases mv <;> simp only [view]
      rw [view_vals hd vs ks hv]
  | _ => rfl
termination_by sizeOf v

theorem view_fields {env : Env} (hd : Distinct env) (ds : List Decl) (vs : List Val)
    (h : FitsAll env ds vs) : (ds.zip vs).map (fun p => view env env p.1.ty p.2) = vs := by
  cases vs with
  | nil => simp
  | cons v vs =>
    cases h with
    | cons hv hvs =>
      simp only [List.zip_cons_cons, List.map_cons]
      rw [view_self hd v hv, view_fields hd _ vs hvs]
termination_by sizeOf vs

theorem view_items {env : Env} (hd : Distinct env) {s : Nat} (l : List Val) (h : FitsItems env s l) :
    viewItems env env s l = l := by
  cases l with
  | nil => simp [viewItems]
  | cons v l =>
    cases v with
    | obj fs =>
      cases h with
      | cons hfs hl =>
        simp only [viewItems, view]
        rw [readAs_self hd hfs (view_fields hd (env s) fs hfs), view_items hd l hl]
    | _ => cases h
termination_by sizeOf l

theorem view_vals {env : Env} (hd : Distinct env) {s : Nat} (vs : List Val) (ks : List Key)
    (h : FitsVals env (.struct s) ks vs) : viewItems env env s vs = vs := by
  cases vs with
  | nil => simp [viewItems]
  | cons v vs =>
    cases v with
    | obj fs =>
      cases h with
      | cons hx hl =>
        cases hx with
        | struct hfs =>
          simp only [viewItems, view]
          rw [readAs_self hd hfs (view_fields hd (env s) fs hfs), view_vals hd vs _ hl]
    | _ => cases h with
      | cons hx _ => cases hx
termination_by sizeOf vs

end

mutual

/-- A reader that knows every field, or may skip and meets only skippable ones, can read. -/
theorem reads_all {old new : Env} {ig : Bool}
    (hp : ∀ s, ∀ d ∈ new s, Known (old s) d.name ∨ (ig = true ∧ ∀ v, Fits new d.ty v → Skips d.ty v))
    {ty : Ty} (v : Val) (h : Fits new ty v) : Reads old new ig ty v := by
  cases v with
  | obj fs =>
    cases h with
    | @obj s _ h => exact .obj (reads_fields hp (new s) fs h fun d h => h)
  | list l =>
    cases h with
    | list h => exact .list (reads_items hp l h)
  | map ks vs =>
    cases h with
    | @map k mv _ _ hk hr hv =>
      cases mv with
      | struct s => exact .map (reads_vals hp vs ks hv)
      | _ => exact .flat (by simp) (by simp) (by simp)
  | _ => cases h <;> exact .flat (by simp) (by simp) (by simp)
termination_by sizeOf v

theorem reads_fields {old new : Env} {ig : Bool}
    (hp : ∀ s, ∀ d ∈ new s, Known (old s) d.name ∨ (ig = true ∧ ∀ v, Fits new d.ty v → Skips d.ty v))
    {s : Nat} (ds : List Decl) (vs : List Val) (h : FitsAll new ds vs) (hm : ∀ d ∈ ds, d ∈ new s) :
    ReadsAll old new ig s ds vs := by
  cases vs with
  | nil => cases h; exact .nil
  | cons v vs =>
    cases h with
    | @cons d ds _ _ hv hvs =>
      have hr := reads_fields hp ds vs hvs fun d hd => hm d (by simp [hd])
      by_cases hk : Known (old s) d.name
      · exact .known hk (reads_all hp v hv) hr
      · rcases hp s d (hm d (by simp)) with h | ⟨hi, hs⟩
        · exact absurd h hk
        · exact .skipped hk hi (hs v hv) hr
termination_by sizeOf vs

theorem reads_items {old new : Env} {ig : Bool}
    (hp : ∀ s, ∀ d ∈ new s, Known (old s) d.name ∨ (ig = true ∧ ∀ v, Fits new d.ty v → Skips d.ty v))
    {s : Nat} (l : List Val) (h : FitsItems new s l) : ReadsItems old new ig s l := by
  cases l with
  | nil => exact .nil
  | cons v l =>
    cases v with
    | obj fs =>
      cases h with
      | cons hfs hl => exact .cons (reads_fields hp (new s) fs hfs fun d h => h) (reads_items hp l hl)
    | _ => cases h
termination_by sizeOf l

theorem reads_vals {old new : Env} {ig : Bool}
    (hp : ∀ s, ∀ d ∈ new s, Known (old s) d.name ∨ (ig = true ∧ ∀ v, Fits new d.ty v → Skips d.ty v))
    {s : Nat} (vs : List Val) (ks : List Key) (h : FitsVals new (.struct s) ks vs) :
    ReadsItems old new ig s vs := by
  cases vs with
  | nil => exact .nil
  | cons v vs =>
    cases v with
    | obj fs =>
      cases h with
      | cons hx hl =>
        cases hx with
        | struct hfs =>
          exact .cons (reads_fields hp (new s) fs hfs fun d h => h) (reads_vals hp vs _ hl)
    | _ => cases h with
      | cons hx _ => cases hx
termination_by sizeOf vs

end

/-! ### What is refused -/

/-- An unknown field that cannot be skipped. -/
theorem skip_fails {env : Env} {name : Str} {ty : Ty} {v : Val} (h : Fits env ty v) (hs : ¬ Skips ty v)
    {tok : Token} {rest : List Token} (hw : walkField env name ty v = tok :: rest) :
    ∃ N, ∀ n, N ≤ n → ∀ ts, skipValue n tok (rest ++ ts) = .err ∨
      ∃ t r, t.kind = .listStart ∧ skipValue n tok (rest ++ ts) = .ok (t :: r) := by
  cases h <;> simp only [walkField, listToks] at hw <;> simp only [Skips] at hs <;>
    try exact absurd trivial hs
  case map k v ks vs hk hr hv =>
    have hv' : v = .listAny := by cases v <;> simp [Skips] at hs ⊢
    subst hv'
    simp only [Skips, Val.map.injEq] at hs
    split at hw
    · rename_i he
      subst he
      cases hv
      exact absurd ⟨rfl, rfl⟩ hs
    · simp only [List.cons.injEq] at hw
      obtain ⟨rfl, rfl⟩ := hw
      refine ⟨3, fun n hn ts => .inl ?_⟩
      obtain ⟨n, rfl⟩ : ∃ m, n = m + 3 := ⟨n - 3, by omega⟩
      cases hv with
      | nil => simp at hs
      | @cons _ key ks x vs hx _ =>
        cases hx with
        | @listAny l _ =>
          simp only [skipValue, List.cons_append, List.append_assoc, skipMap, walkEntries, walkEntry,
            anyToks, MTy.ft]
          simp [skipEntries, entryTok_kind]
  case anys l hl =>
    split at hw
    · rename_i he
      exact absurd (by rw [List.length_eq_zero_iff.1 he]) hs
    · simp only [List.cons.injEq] at hw
      obtain ⟨rfl, rfl⟩ := hw
      exact ⟨0, fun n _ ts => .inr ⟨_, _, rfl, rfl⟩⟩

mutual

theorem reject_field {old new : Env} (ho : Distinct old) (hn : Distinct new) (ha : Agree old new)
    {ig : Bool} {name : Str} {ty : Ty} (v : Val) (hf : Fits new ty v) (hr : ¬ Reads old new ig ty v)
    (x : Val) (hx : Shape ty x) :
    ∀ tok rest, walkField new name ty v = tok :: rest →
    ∃ N, ∀ n, N ≤ n → ∀ ts, ingestField old ig n ty x tok (rest ++ ts) = .err := by
  intro tok rest hw
  cases v with
  | obj fs =>
    cases hf with
    | @obj s _ hfs =>
      have hr' : ¬ ReadsAll old new ig s (new s) fs := fun h => hr (.obj h)
      simp only [walkField, List.cons.injEq] at hw
      obtain ⟨rfl, rfl⟩ := hw
      obtain ⟨N, hN⟩ := reject_fields ho hn ha (new s) fs hfs hr' (fresh old s) (shapeAll_fresh old s)
        (fun d hd => hd)
      refine ⟨N + 2, fun n hn' ts => ?_⟩
      obtain ⟨n, rfl⟩ : ∃ m, n = m + 2 := ⟨n - 2, by omega⟩
      simp only [ingestField, List.cons_append, ingestFrom, List.append_assoc]
      simp only [List.nil_append]
      rw [if_neg (by simp), if_neg (by simp), hN n (by omega) ts]
  | list l =>
    cases hf with
    | @list s _ hl =>
      have hr' : ¬ ReadsItems old new ig s l := fun h => hr (.list h)
      simp only [walkField, listToks] at hw
      split at hw
      · rename_i he
        rw [List.length_eq_zero_iff.1 he] at hr'
        exact absurd .nil hr'
      · simp only [List.cons.injEq] at hw
        obtain ⟨rfl, rfl⟩ := hw
        obtain ⟨N, hN⟩ := reject_items ho hn ha l hl hr' x hx { kind := .listEnd, name } rfl
        refine ⟨N + 1, fun n hn' ts => ?_⟩
        obtain ⟨n, rfl⟩ : ∃ m, n = m + 1 := ⟨n - 1, by omega⟩
        simp only [ingestField, List.cons_append, List.append_assoc, List.nil_append]
        rw [if_neg (by simp), if_neg (by simp), hN n (by omega) ts]
  | map ks vs =>
    cases hf with
    | @map k v _ _ hk hrise hv =>
      cases v with
      | struct s =>
        have hr' : ¬ ReadsItems old new ig s vs := fun h => hr (.map h)
        simp only [walkField] at hw
        split at hw
        · rename_i he
          subst he
          cases hv
          exact absurd .nil hr'
        · simp only [List.cons.injEq] at hw
          obtain ⟨rfl, rfl⟩ := hw
          obtain ⟨N, hN⟩ := reject_entries ho hn ha (name := name) vs ks hk hv hr' x
            { kind := .mapEnd, name } rfl
          refine ⟨N + 1, fun n hn' ts => ?_⟩
          obtain ⟨n, rfl⟩ : ∃ m, n = m + 1 := ⟨n - 1, by omega⟩
          simp only [ingestField, List.cons_append, List.append_assoc, List.nil_append]
          rw [if_neg (by simp), if_neg (by simp), hN n (by omega) ts]
      | _ => exact absurd (.flat (by simp) (by simp) (by simp)) hr
  | _ => cases hf <;> exact absurd (.flat (by simp) (by simp) (by simp)) hr
termination_by sizeOf v

theorem reject_fields {old new : Env} (ho : Distinct old) (hn : Distinct new) (ha : Agree old new)
    {ig : Bool} {s : Nat} (ds : List Decl) (vs : List Val) (hf : FitsAll new ds vs)
    (hr : ¬ ReadsAll old new ig s ds vs) (x : List Val) (hx : ShapeAll (old s) x)
    (hd : ∀ d ∈ ds, d ∈ new s) :
    ∃ N, ∀ n, N ≤ n → ∀ ts,
      ingestLoop old ig n s x (walkFields new ds vs ++ { kind := .structEnd } :: ts) = .err := by
  cases vs with
  | nil => cases hf; exact absurd .nil hr
  | cons v vs =>
    cases hf with
    | @cons d ds _ _ hv hvs =>
      obtain ⟨tok, rest, hw, hk, hname⟩ := walkField_cons (name := d.name) hv
      by_cases hkn : Known (old s) d.name
      · obtain ⟨i, hi⟩ := fieldIdx_known hkn
        obtain ⟨d', hd', hdn⟩ := fieldIdx_some hi
        have hil : i < (old s).length := (List.getElem?_eq_some_iff.1 hd').1
        have hix : x[i]? = some (x[i]'(by rw [hx.1]; exact hil)) :=
          List.getElem?_eq_getElem _
        have hty : d'.ty = d.ty := ha s d' (List.mem_of_getElem? hd') d (hd d (by simp)) hdn
        have hsh := hx.2 i d' _ hd' hix
        rw [hty] at hsh
        by_cases hrv : Reads old new ig d.ty v
        · obtain ⟨N1, h1⟩ := read_field ho hn ha v hv hrv _ hsh tok rest hw
          have hsh' := shape_merge (old := old) hsh hv
          obtain ⟨N2, h2⟩ := reject_fields ho hn ha ds vs hvs (fun h => hr (.known hkn hrv h)) _
            (shapeAll_set hx hd' (by rw [hty]; exact hsh')) (fun d hm => hd d (by simp [hm]))
          refine ⟨max N1 N2 + 1, fun n hn' ts => ?_⟩
          obtain ⟨n, rfl⟩ : ∃ m, n = m + 1 := ⟨n - 1, by omega⟩
          simp only [walkFields, hw, List.cons_append, List.append_assoc]
          rw [ingestLoop]
          simp only [hk, hname, hi, hd', hix, hty]
          rw [h1 n (by omega)]
          simp only
          rw [h2 n (by omega)]
        · obtain ⟨N1, h1⟩ := reject_field ho hn ha v hv hrv _ hsh tok rest hw
          refine ⟨N1 + 1, fun n hn' ts => ?_⟩
          obtain ⟨n, rfl⟩ : ∃ m, n = m + 1 := ⟨n - 1, by omega⟩
          simp only [walkFields, hw, List.cons_append, List.append_assoc]
          rw [ingestLoop]
          simp only [hk, hname, hi, hd', hix, hty]
          rw [h1 n (by omega)]
      · have hi := fieldIdx_unknown hkn
        cases ig with
        | false =>
          refine ⟨1, fun n hn' ts => ?_⟩
          obtain ⟨n, rfl⟩ : ∃ m, n = m + 1 := ⟨n - 1, by omega⟩
          simp only [walkFields, hw, List.cons_append, List.append_assoc]
          rw [ingestLoop]
          simp [hk, hname, hi]
        | true =>
          by_cases hsk : Skips d.ty v
          · obtain ⟨N1, h1⟩ := skip_field hv hsk hw
            obtain ⟨N2, h2⟩ := reject_fields ho hn ha ds vs hvs (fun h => hr (.skipped hkn rfl hsk h)) x hx
              (fun d hm => hd d (by simp [hm]))
            refine ⟨max N1 N2 + 1, fun n hn' ts => ?_⟩
            obtain ⟨n, rfl⟩ : ∃ m, n = m + 1 := ⟨n - 1, by omega⟩
            simp only [walkFields, hw, List.cons_append, List.append_assoc]
            rw [ingestLoop]
            simp only [hk, hname, hi, if_true]
            rw [h1 n (by omega)]
            simp only
            rw [h2 n (by omega)]
          · obtain ⟨N1, h1⟩ := skip_fails hv hsk hw
            refine ⟨N1 + 2, fun n hn' ts => ?_⟩
            obtain ⟨n, rfl⟩ : ∃ m, n = m + 2 := ⟨n - 2, by omega⟩
            simp only [walkFields, hw, List.cons_append, List.append_assoc]
            rw [ingestLoop]
            simp only [hk, hname, hi, if_true]
            rcases h1 (n + 1) (by omega) (walkFields new ds vs ++ { kind := .structEnd } :: ts) with
              h | ⟨t, r, ht, h⟩
            · rw [h]
            · rw [h]
              simp [ingestLoop, ht]
termination_by sizeOf vs

theorem reject_items {old new : Env} (ho : Distinct old) (hn : Distinct new) (ha : Agree old new)
    {ig : Bool} {s : Nat} (l : List Val) (hf : FitsItems new s l) (hr : ¬ ReadsItems old new ig s l)
    (x : Val) (hx : ∃ o, x = .list o) (e : Token) (he : e.kind = .listEnd) :
    ∃ N, ∀ n, N ≤ n → ∀ ts, ingestItems old ig n s x (walkItems new s l ++ e :: ts) = .err := by
  cases l with
  | nil => exact absurd .nil hr
  | cons v l =>
    cases v with
    | obj fs =>
      cases hf with
      | cons hfs hl =>
        by_cases hrs : ReadsAll old new ig s (new s) fs
        · obtain ⟨N1, h1⟩ := read_fields ho hn ha (new s) fs hfs hrs (fresh old s) (shapeAll_fresh old s)
            (fun d hd => hd)
          obtain ⟨N2, h2⟩ := reject_items ho hn ha l hl (fun h => hr (.cons hrs h))
            (appendRec x (readAs (old s) (viewFields old new (new s) fs)))
            (by obtain ⟨o, rfl⟩ := hx; exact ⟨_, rfl⟩) e he
          refine ⟨max N1 N2 + 2, fun n hn' ts => ?_⟩
          obtain ⟨n, rfl⟩ : ∃ m, n = m + 2 := ⟨n - 2, by omega⟩
          simp only [walkItems, walk, List.cons_append, List.append_assoc, List.nil_append]
          rw [ingestItems, if_neg (by simp), ingestFrom, if_neg (by simp), h1 n (by omega),
            mergeFields_view ho hn ha hfs]
          simp only
          rw [h2 (n + 1) (by omega)]
        · obtain ⟨N1, h1⟩ := reject_fields ho hn ha (new s) fs hfs hrs (fresh old s)
            (shapeAll_fresh old s) (fun d hd => hd)
          refine ⟨N1 + 2, fun n hn' ts => ?_⟩
          obtain ⟨n, rfl⟩ : ∃ m, n = m + 2 := ⟨n - 2, by omega⟩
          simp only [walkItems, walk, List.cons_append, List.append_assoc, List.nil_append]
          rw [ingestItems, if_neg (by simp), ingestFrom, if_neg (by simp), h1 n (by omega)]
    | _ => cases hf
termination_by sizeOf l

theorem reject_entries {old new : Env} (ho : Distinct old) (hn : Distinct new) (ha : Agree old new)
    {ig : Bool} {name : Str} {k : FT} {s : Nat} (vs : List Val) (ks : List Key)
    (hk : ∀ key ∈ ks, KeyFits k key) (hf : FitsVals new (.struct s) ks vs)
    (hr : ¬ ReadsItems old new ig s vs) (x : Val) (e : Token) (he : e.kind = .mapEnd) :
    ∃ N, ∀ n, N ≤ n → ∀ ts,
      ingestEntries old ig n k (.struct s) x (walkEntries new name k (.struct s) ks vs ++ e :: ts) =
        .err := by
  have hn1 : ∀ t : Token, t.kind = .mapEntry → ¬ t.kind = .mapEnd := by intro t h; simp [h]
  have hn2 : ∀ t : Token, t.kind = .mapEntry → ¬ t.kind ≠ .mapEntry := by intro t h; simp [h]
  cases vs with
  | nil => exact absurd .nil hr
  | cons y vs =>
    cases hf with
    | @cons _ key ks _ _ hy hvs =>
      have hks : ∀ key ∈ ks, KeyFits k key := fun a h => hk a (by simp [h])
      cases y with
      | obj fs =>
        cases hy with
        | struct hfs =>
          have hkey : tokKey k (entryTok name k (MTy.struct s).ft key) = key :=
            tokKey_entry (hk key (by simp))
          by_cases hrs : ReadsAll old new ig s (new s) fs
          · obtain ⟨N1, h1⟩ := read_fields ho hn ha (new s) fs hfs hrs (fresh old s)
              (shapeAll_fresh old s) (fun d hd => hd)
            obtain ⟨N, h⟩ := reject_entries ho hn ha (name := name) vs ks hks hvs
              (fun h => hr (.cons hrs h))
              (mapPut k key (.obj (readAs (old s) (viewFields old new (new s) fs))) x) e he
            refine ⟨max N1 N + 2, fun n hn' ts => ?_⟩
            obtain ⟨n, rfl⟩ : ∃ m, n = m + 2 := ⟨n - 2, by omega⟩
            simp only [walkEntries, walkEntry, List.cons_append, List.nil_append, List.append_assoc]
            rw [ingestEntries, if_neg (hn1 _ (entryTok_kind _ _ _ _)),
              if_neg (hn2 _ (entryTok_kind _ _ _ _))]
            rw [ingestFrom, if_neg (by simp), h1 n (by omega), mergeFields_view ho hn ha hfs]
            simp only
            rw [hkey, h (n + 1) (by omega)]
          · obtain ⟨N1, h1⟩ := reject_fields ho hn ha (new s) fs hfs hrs (fresh old s)
              (shapeAll_fresh old s) (fun d hd => hd)
            refine ⟨N1 + 2, fun n hn' ts => ?_⟩
            obtain ⟨n, rfl⟩ : ∃ m, n = m + 2 := ⟨n - 2, by omega⟩
            simp only [walkEntries, walkEntry, List.cons_append, List.nil_append, List.append_assoc]
            rw [ingestEntries, if_neg (hn1 _ (entryTok_kind _ _ _ _)),
              if_neg (hn2 _ (entryTok_kind _ _ _ _))]
            rw [ingestFrom, if_neg (by simp), h1 n (by omega)]
      | _ => cases hy
termination_by sizeOf vs

end

/-- A struct with a field that cannot be read is refused. -/
theorem reject_struct {old new : Env} (ho : Distinct old) (hn : Distinct new) (ha : Agree old new)
    {ig : Bool} {s : Nat} {fs : List Val} (hf : FitsAll new (new s) fs)
    (hr : ¬ ReadsAll old new ig s (new s) fs) {x : List Val} (hx : ShapeAll (old s) x) (ts : List Token) :
    ingest old ig s x (walk new s (.obj fs) ++ ts) = .err := by
  obtain ⟨N, h⟩ := reject_fields ho hn ha (new s) fs hf hr x hx fun d hd => hd
  unfold ingest
  rw [ingest_of_large (r := .err)]
  refine ⟨N + 1, fun n hn' => ?_⟩
  obtain ⟨n, rfl⟩ : ∃ m, n = m + 1 := ⟨n - 1, by omega⟩
  simp only [walk, List.cons_append, List.append_assoc, List.nil_append]
  rw [ingestFrom, if_neg (by simp), h n (by omega)]

end Claw.Tok
