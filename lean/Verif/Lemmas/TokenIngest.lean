import Verif.Lemmas.TokenRead

/-!
# Ingest reads back what Walk wrote
-/

namespace Claw.Tok

open Claw.Idl (FT Out)

theorem appendRec_all {x : Val} {fs l : List Val} (h : ∃ o, x = .list o) :
    appendAll (appendRec x fs) l = appendAll x (.obj fs :: l) := by
  obtain ⟨o, rfl⟩ := h
  simp [appendRec, appendAll]

mutual

theorem read_field {old new : Env} (ho : Distinct old) (hn : Distinct new) (ha : Agree old new)
    {ig : Bool} {name : Str} {ty : Ty} (v : Val) (hf : Fits new ty v) (hr : Reads old new ig ty v)
    (x : Val) (hx : Shape ty x) :
    ∀ tok rest, walkField new name ty v = tok :: rest →
    ∃ N, ∀ n, N ≤ n → ∀ ts,
      ingestField old ig n ty x tok (rest ++ ts) = .ok (merge ty x (view old new ty v), ts) := by
  intro tok rest hw
  have pos : ∀ (P : Nat → Prop), (∃ N, ∀ n, N ≤ n → P (n + 1)) → ∃ N, ∀ n, N ≤ n → P n := by
    rintro P ⟨N, h⟩
    refine ⟨N + 1, fun n hn => ?_⟩
    obtain ⟨n, rfl⟩ : ∃ m, n = m + 1 := ⟨n - 1, by omega⟩
    exact h n (by omega)
  apply pos
  cases v with
  | num d =>
    cases hf with
    | @num t e d ht =>
      simp only [walkField, List.cons.injEq] at hw
      obtain ⟨rfl, rfl⟩ := hw
      refine ⟨0, fun n _ ts => ?_⟩
      simp only [ingestField, tokNum_numTok ht, view, merge]
      rfl
  | bin b =>
    cases hf <;>
    · simp only [walkField, List.cons.injEq] at hw
      obtain ⟨rfl, rfl⟩ := hw
      exact ⟨0, fun n _ ts => rfl⟩
  | null =>
    cases hf <;>
    · simp only [walkField, List.cons.injEq] at hw
      obtain ⟨rfl, rfl⟩ := hw
      exact ⟨0, fun n _ ts => rfl⟩
  | obj fs =>
    cases hf with
    | @obj s _ hfs =>
      cases hr with
      | flat h => exact absurd rfl (h _)
      | obj hr =>
        simp only [walkField, List.cons.injEq] at hw
        obtain ⟨rfl, rfl⟩ := hw
        obtain ⟨N, hN⟩ := read_fields ho hn ha (new s) fs hfs hr (fresh old s) (shapeAll_fresh old s)
          (fun d hd => hd)
        refine ⟨N + 1, fun n hn' ts => ?_⟩
        obtain ⟨n, rfl⟩ : ∃ m, n = m + 1 := ⟨n - 1, by omega⟩
        simp only [ingestField, List.cons_append, ingestFrom, List.append_assoc]
        simp only [List.nil_append]
        rw [if_neg (by simp), if_neg (by simp), hN n (by omega) ts, mergeFields_view ho hn ha hfs]
        simp only [view, merge]
  | nums ds =>
    cases hf with
    | @nums t e _ hds =>
      obtain ⟨o, rfl⟩ := hx
      simp only [walkField, listToks] at hw
      split at hw
      · rename_i hl
        simp only [List.cons.injEq] at hw
        obtain ⟨rfl, rfl⟩ := hw
        have : ds = [] := List.length_eq_zero_iff.1 hl
        subst this
        refine ⟨0, fun n _ ts => ?_⟩
        simp [ingestField, view, merge, appendNums]
      · simp only [List.cons.injEq] at hw
        obtain ⟨rfl, rfl⟩ := hw
        refine ⟨0, fun n _ ts => ?_⟩
        simp only [ingestField, List.cons_append, List.append_assoc, List.nil_append]
        rw [if_neg (by simp), readList_fields (fun t ht => by
          obtain ⟨a, _, rfl⟩ := List.mem_map.1 ht; exact numTok_kind _ _ _ _) _ _ rfl rfl]
        simp only [tokNum_map hds, view, merge]
  | bins bs =>
    cases hf <;>
    · obtain ⟨o, rfl⟩ := hx
      simp only [walkField, listToks] at hw
      split at hw
      · rename_i hl
        simp only [List.cons.injEq] at hw
        obtain ⟨rfl, rfl⟩ := hw
        have : bs = [] := List.length_eq_zero_iff.1 hl
        subst this
        refine ⟨0, fun n _ ts => ?_⟩
        simp [ingestField, view, merge, appendBins]
      · simp only [List.cons.injEq] at hw
        obtain ⟨rfl, rfl⟩ := hw
        refine ⟨0, fun n _ ts => ?_⟩
        simp only [ingestField, List.cons_append, List.append_assoc, List.nil_append]
        rw [if_neg (by simp), readList_fields (fun t ht => by
          obtain ⟨a, _, rfl⟩ := List.mem_map.1 ht; rfl) _ _ rfl rfl]
        simp [view, merge, Function.comp_def]
  | list l =>
    cases hf with
    | @list s _ hl =>
      cases hr with
      | flat _ h => exact absurd rfl (h _)
      | list hr =>
        simp only [walkField, listToks] at hw
        split at hw
        · rename_i hl
          simp only [List.cons.injEq] at hw
          obtain ⟨rfl, rfl⟩ := hw
          have : l = [] := List.length_eq_zero_iff.1 hl
          subst this
          obtain ⟨o, rfl⟩ := hx
          refine ⟨0, fun n _ ts => ?_⟩
          simp [ingestField, view, viewItems, merge, appendAll]
        · simp only [List.cons.injEq] at hw
          obtain ⟨rfl, rfl⟩ := hw
          obtain ⟨N, hN⟩ := read_items ho hn ha l hl hr x hx { kind := .listEnd, name } rfl
          refine ⟨N, fun n hn' ts => ?_⟩
          simp only [ingestField, List.cons_append, List.append_assoc, List.nil_append]
          rw [if_neg (by simp), if_neg (by simp), hN n hn' ts]
          simp only [view, merge]
  | map ks vs =>
    cases hf with
    | @map k v _ _ hk hrise hv =>
      simp only [walkField] at hw
      split at hw
      · rename_i hl
        subst hl
        cases hv
        simp only [List.cons.injEq] at hw
        obtain ⟨rfl, rfl⟩ := hw
        refine ⟨0, fun n _ ts => ?_⟩
        cases v <;> simp [ingestField, view, viewItems, merge, mergeMap]
      · simp only [List.cons.injEq] at hw
        obtain ⟨rfl, rfl⟩ := hw
        have hr' : ∀ s, v = .struct s → ReadsItems old new ig s vs := by
          rintro s rfl
          cases hr with
          | map hr => exact hr
          | flat _ _ h => exact absurd rfl (h _ _)
        obtain ⟨N, hN⟩ := read_entries ho hn ha (name := name) vs ks hk hv hr' x
          { kind := .mapEnd, name } rfl
        refine ⟨N, fun n hn' ts => ?_⟩
        simp only [ingestField, List.cons_append, List.append_assoc, List.nil_append]
        rw [if_neg (by simp), if_neg (by simp), hN n hn' ts]
  | any h d =>
    cases hf with
    | any hfit =>
      simp only [walkField, List.cons.injEq] at hw
      obtain ⟨rfl, rfl⟩ := hw
      refine ⟨0, fun n _ ts => ?_⟩
      simp [ingestField, setAnyRaw, hfit.1, hfit.2, view, merge]
  | anys l =>
    cases hf with
    | anys hl =>
      simp only [walkField, listToks] at hw
      split at hw
      · rename_i hl
        simp only [List.cons.injEq] at hw
        obtain ⟨rfl, rfl⟩ := hw
        have : l = [] := List.length_eq_zero_iff.1 hl
        subst this
        refine ⟨0, fun n _ ts => ?_⟩
        simp [ingestField, view, merge]
      · rename_i hne
        simp only [List.cons.injEq] at hw
        obtain ⟨rfl, rfl⟩ := hw
        refine ⟨0, fun n _ ts => ?_⟩
        simp only [ingestField, List.cons_append, List.append_assoc, List.nil_append]
        rw [if_neg (by simp), readList_fields (fun t ht => by
          obtain ⟨a, _, rfl⟩ := List.mem_map.1 ht; rfl) _ _ rfl rfl]
        have h1 : (l.map fun p => ({ kind := .field, type := .any, typeHash := p.1, bytes := p.2 } : Token)).all
            (fun t => t.typeHash.length = 16) = true := by
          simp only [List.all_map, List.all_eq_true]
          intro p hp
          simpa using (hl p hp).1
        have hne' : l ≠ [] := by intro h; simp [h] at hne
        simp only [setListAnyRaw, h1, view, merge, hne', if_true, if_false, List.map_map]
        simp [Function.comp_def]
termination_by sizeOf v

theorem read_fields {old new : Env} (ho : Distinct old) (hn : Distinct new) (ha : Agree old new)
    {ig : Bool} {s : Nat} (ds : List Decl) (vs : List Val) (hf : FitsAll new ds vs)
    (hr : ReadsAll old new ig s ds vs) (x : List Val) (hx : ShapeAll (old s) x)
    (hd : ∀ d ∈ ds, d ∈ new s) :
    ∃ N, ∀ n, N ≤ n → ∀ ts,
      ingestLoop old ig n s x (walkFields new ds vs ++ { kind := .structEnd } :: ts) =
        .ok (mergeFields (old s) x (viewFields old new ds vs), ts) := by
  cases vs with
  | nil =>
    cases hf
    refine ⟨1, fun n hn ts => ?_⟩
    obtain ⟨n, rfl⟩ : ∃ m, n = m + 1 := ⟨n - 1, by omega⟩
    simp [walkFields, ingestLoop, viewFields, mergeFields]
  | cons v vs =>
    cases hf with
    | @cons d ds _ _ hv hvs =>
      obtain ⟨tok, rest, hw, hk, hname⟩ := walkField_cons (name := d.name) hv
      cases hr with
      | known hkn hrv hrs =>
        obtain ⟨i, hi⟩ := fieldIdx_known hkn
        obtain ⟨d', hd', hdn⟩ := fieldIdx_some hi
        have hil : i < (old s).length := (List.getElem?_eq_some_iff.1 hd').1
        have hix : x[i]? = some (x[i]'(by rw [hx.1]; exact hil)) :=
          List.getElem?_eq_getElem _
        have hty : d'.ty = d.ty := ha s d' (List.mem_of_getElem? hd') d (hd d (by simp)) hdn
        have hsh := hx.2 i d' _ hd' hix
        rw [hty] at hsh
        obtain ⟨N1, h1⟩ := read_field ho hn ha v hv hrv _ hsh tok rest hw
        have hsh' := shape_merge (old := old) hsh hv
        obtain ⟨N2, h2⟩ := read_fields ho hn ha ds vs hvs hrs _
          (shapeAll_set hx hd' (by rw [hty]; exact hsh')) (fun d hm => hd d (by simp [hm]))
        refine ⟨max N1 N2 + 1, fun n hn' ts => ?_⟩
        obtain ⟨n, rfl⟩ : ∃ m, n = m + 1 := ⟨n - 1, by omega⟩
        simp only [walkFields, hw, List.cons_append, List.append_assoc]
        rw [ingestLoop]
        simp only [hk, hname, hi, hd', hix, hty]
        rw [h1 n (by omega)]
        simp only
        rw [h2 n (by omega)]
        simp only [viewFields, mergeFields, hi, hd', hix, hty]
      | skipped hkn hig hsk hrs =>
        have hi := fieldIdx_unknown hkn
        obtain ⟨N1, h1⟩ := skip_field hv hsk hw
        obtain ⟨N2, h2⟩ := read_fields ho hn ha ds vs hvs hrs x hx (fun d hm => hd d (by simp [hm]))
        refine ⟨max N1 N2 + 1, fun n hn' ts => ?_⟩
        obtain ⟨n, rfl⟩ : ∃ m, n = m + 1 := ⟨n - 1, by omega⟩
        simp only [walkFields, hw, List.cons_append, List.append_assoc]
        rw [ingestLoop]
        simp only [hk, hname, hi, hig, if_true]
        rw [h1 n (by omega)]
        simp only
        rw [← hig, h2 n (by omega)]
        simp only [viewFields, mergeFields, hi]
termination_by sizeOf vs

theorem read_items {old new : Env} (ho : Distinct old) (hn : Distinct new) (ha : Agree old new)
    {ig : Bool} {s : Nat} (l : List Val) (hf : FitsItems new s l) (hr : ReadsItems old new ig s l)
    (x : Val) (hx : ∃ o, x = .list o) (e : Token) (he : e.kind = .listEnd) :
    ∃ N, ∀ n, N ≤ n → ∀ ts,
      ingestItems old ig n s x (walkItems new s l ++ e :: ts) =
        .ok (appendAll x (viewItems old new s l), ts) := by
  cases l with
  | nil =>
    obtain ⟨o, rfl⟩ := hx
    refine ⟨1, fun n hn ts => ?_⟩
    obtain ⟨n, rfl⟩ : ∃ m, n = m + 1 := ⟨n - 1, by omega⟩
    simp [walkItems, ingestItems, viewItems, appendAll, he]
  | cons v l =>
    cases v with
    | obj fs =>
      cases hf with
      | cons hfs hl =>
        cases hr with
        | cons hrs hrl =>
          obtain ⟨N1, h1⟩ := read_fields ho hn ha (new s) fs hfs hrs (fresh old s) (shapeAll_fresh old s)
            (fun d hd => hd)
          obtain ⟨N2, h2⟩ := read_items ho hn ha l hl hrl
            (appendRec x (readAs (old s) (viewFields old new (new s) fs)))
            (by obtain ⟨o, rfl⟩ := hx; exact ⟨_, rfl⟩) e he
          refine ⟨max N1 N2 + 2, fun n hn' ts => ?_⟩
          obtain ⟨n, rfl⟩ : ∃ m, n = m + 2 := ⟨n - 2, by omega⟩
          simp only [walkItems, walk, List.cons_append, List.append_assoc, List.nil_append]
          rw [ingestItems, if_neg (by simp), ingestFrom, if_neg (by simp), h1 n (by omega),
            mergeFields_view ho hn ha hfs]
          simp only
          rw [h2 (n + 1) (by omega), appendRec_all hx]
          simp only [viewItems, view]
    | _ => cases hf
termination_by sizeOf l

theorem read_entries {old new : Env} (ho : Distinct old) (hn : Distinct new) (ha : Agree old new)
    {ig : Bool} {name : Str} {k : FT} {v : MTy} (vs : List Val) (ks : List Key)
    (hk : ∀ key ∈ ks, KeyFits k key) (hf : FitsVals new v ks vs)
    (hr : ∀ s, v = .struct s → ReadsItems old new ig s vs)
    (x : Val) (e : Token) (he : e.kind = .mapEnd) :
    ∃ N, ∀ n, N ≤ n → ∀ ts,
      ingestEntries old ig n k v x (walkEntries new name k v ks vs ++ e :: ts) =
        .ok (merge (.map k v) x (view old new (.map k v) (.map ks vs)), ts) := by
  have hn1 : ∀ t : Token, t.kind = .mapEntry → ¬ t.kind = .mapEnd := by intro t h; simp [h]
  have hn2 : ∀ t : Token, t.kind = .mapEntry → ¬ t.kind ≠ .mapEntry := by intro t h; simp [h]
  cases vs with
  | nil =>
    cases hf
    refine ⟨1, fun n hn ts => ?_⟩
    obtain ⟨n, rfl⟩ : ∃ m, n = m + 1 := ⟨n - 1, by omega⟩
    have : view old new (.map k v) (.map [] []) = .map [] [] := by cases v <;> simp [view, viewItems]
    rw [this]
    simp [walkEntries, ingestEntries, merge, mergeMap, he]
  | cons y vs =>
    cases hf with
    | @cons _ key ks _ _ hy hvs =>
      have hkey : tokKey k (entryTok name k v.ft key) = key := tokKey_entry (hk key (by simp))
      have hks : ∀ key ∈ ks, KeyFits k key := fun a h => hk a (by simp [h])
      cases y with
      | num d =>
        cases hy with
        | num ht =>
          obtain ⟨N, h⟩ := read_entries ho hn ha (name := name) vs ks hks hvs (by simp)
            (mapPut k key (.num d) x) e he
          refine ⟨N + 1, fun n hn' ts => ?_⟩
          obtain ⟨n, rfl⟩ : ∃ m, n = m + 1 := ⟨n - 1, by omega⟩
          simp only [walkEntries, walkEntry, List.cons_append, List.nil_append]
          rw [ingestEntries, if_neg (hn1 _ (entryTok_kind _ _ _ _)), if_neg (hn2 _ (entryTok_kind _ _ _ _))]
          simp only [norm_holds ht]
          rw [show tokKey k { entryTok name k (MTy.num _).ft key with data := d } = key from hkey,
            h n (by omega)]
          simp only [view, merge, mergeMap]
      | bin b =>
        cases hy with
        | str =>
          obtain ⟨N, h⟩ := read_entries ho hn ha (name := name) vs ks hks hvs (by simp)
            (mapPut k key (.bin b) x) e he
          refine ⟨N + 1, fun n hn' ts => ?_⟩
          obtain ⟨n, rfl⟩ : ∃ m, n = m + 1 := ⟨n - 1, by omega⟩
          simp only [walkEntries, walkEntry, List.cons_append, List.nil_append]
          rw [ingestEntries, if_neg (hn1 _ (entryTok_kind _ _ _ _)), if_neg (hn2 _ (entryTok_kind _ _ _ _))]
          simp only
          rw [show tokKey k { entryTok name k (MTy.str).ft key with bytes := b } = key from hkey,
            h n (by omega)]
          simp only [view, merge, mergeMap]
      | any hh b =>
        cases hy with
        | any hfit =>
          obtain ⟨N, h⟩ := read_entries ho hn ha (name := name) vs ks hks hvs (by simp)
            (mapPut k key (.any hh b) x) e he
          refine ⟨N + 1, fun n hn' ts => ?_⟩
          obtain ⟨n, rfl⟩ : ∃ m, n = m + 1 := ⟨n - 1, by omega⟩
          simp only [walkEntries, walkEntry, List.cons_append, List.nil_append]
          rw [ingestEntries, if_neg (hn1 _ (entryTok_kind _ _ _ _)), if_neg (hn2 _ (entryTok_kind _ _ _ _))]
          simp only
          rw [show tokKey k { entryTok name k (MTy.any).ft key with typeHash := hh, bytes := b } = key
            from hkey, show hash16 hh = hh by simp [hash16, hfit.1], h n (by omega)]
          simp only [view, merge, mergeMap]
      | anys l =>
        cases hy with
        | listAny hl =>
          obtain ⟨N, h⟩ := read_entries ho hn ha (name := name) vs ks hks hvs (by simp)
            (mapPut k key (.anys l) x) e he
          refine ⟨N + 1, fun n hn' ts => ?_⟩
          obtain ⟨n, rfl⟩ : ∃ m, n = m + 1 := ⟨n - 1, by omega⟩
          simp only [walkEntries, walkEntry, anyToks, List.cons_append, List.nil_append, List.append_assoc]
          rw [ingestEntries, if_neg (hn1 _ (entryTok_kind _ _ _ _)), if_neg (hn2 _ (entryTok_kind _ _ _ _))]
          rw [readList_fields (fun t ht => by
            obtain ⟨a, _, rfl⟩ := List.mem_map.1 ht; rfl) _ _ rfl rfl]
          have hm : (l.map fun p => ({ kind := .field, type := .any, typeHash := p.1, bytes := p.2 } : Token)).map
              (fun t => (hash16 t.typeHash, t.bytes)) = l := by
            rw [List.map_map]
            conv => rhs; rw [← List.map_id l]
            apply List.map_congr_left
            intro p hp
            simp [hash16, (hl p hp).1]
          simp only [hm]
          rw [hkey, h n (by omega)]
          simp only [view, merge, mergeMap]
      | obj fs =>
        cases hy with
        | @struct s _ hfs =>
          cases hr s rfl with
          | cons hrs hrl =>
            obtain ⟨N1, h1⟩ := read_fields ho hn ha (new s) fs hfs hrs (fresh old s)
              (shapeAll_fresh old s) (fun d hd => hd)
            obtain ⟨N, h⟩ := read_entries ho hn ha (name := name) vs ks hks hvs
              (fun s' hs => by cases hs; exact hrl)
              (mapPut k key (.obj (readAs (old s) (viewFields old new (new s) fs))) x) e he
            refine ⟨max N1 N + 2, fun n hn' ts => ?_⟩
            obtain ⟨n, rfl⟩ : ∃ m, n = m + 2 := ⟨n - 2, by omega⟩
            simp only [walkEntries, walkEntry, List.cons_append, List.nil_append, List.append_assoc]
            rw [ingestEntries, if_neg (hn1 _ (entryTok_kind _ _ _ _)),
              if_neg (hn2 _ (entryTok_kind _ _ _ _))]
            rw [ingestFrom, if_neg (by simp), h1 n (by omega), mergeFields_view ho hn ha hfs]
            simp only
            rw [hkey, h (n + 1) (by omega)]
            simp only [view, viewItems, merge, mergeMap]
      | null => cases hy
      | nums => cases hy
      | bins => cases hy
      | list => cases hy
      | map => cases hy
termination_by sizeOf vs

end

/-- A whole struct. -/
theorem read_struct {old new : Env} (ho : Distinct old) (hn : Distinct new) (ha : Agree old new)
    {ig : Bool} {s : Nat} {fs : List Val} (hf : FitsAll new (new s) fs)
    (hr : ReadsAll old new ig s (new s) fs) {x : List Val} (hx : ShapeAll (old s) x) (ts : List Token) :
    ingest old ig s x (walk new s (.obj fs) ++ ts) =
      .ok (mergeFields (old s) x (viewFields old new (new s) fs)) := by
  obtain ⟨N, h⟩ := read_fields ho hn ha (new s) fs hf hr x hx fun d hd => hd
  unfold ingest
  rw [ingest_of_large (r := .ok (mergeFields (old s) x (viewFields old new (new s) fs), ts))]
  refine ⟨N + 1, fun n hn' => ?_⟩
  obtain ⟨n, rfl⟩ : ∃ m, n = m + 1 := ⟨n - 1, by omega⟩
  simp only [walk, List.cons_append, List.append_assoc, List.nil_append]
  rw [ingestFrom, if_neg (by simp), h n (by omega)]

end Claw.Tok
