import Verif.Model.Credentials
import Verif.Lemmas.Metadata

/-!
# C45 Credentials never leave over an insecure connection

The specification flattens nested compositions into the list of basic credentials, each with
what it supplies and whether it demands security.
-/

namespace Claw.Credentials

open Claw Claw.Metadata Claw.Metadata.Heap

/-- A basic credential: what it supplies (`none`: it fails) and whether it demands security. -/
structure Leaf where
  md : Option SMap
  secure : Bool

mutual
/-- All basic credentials, in order. -/
def leaves : Cred → List Leaf
  | .token t s => [⟨some [(lit "authorization", t)], s⟩]
  | .source none _ s => [⟨none, s⟩]
  | .source (some t) [] s => [⟨some [(lit "authorization", t)], s⟩]
  | .source (some t) (c :: ty) s => [⟨some [(lit "authorization", (c :: ty) ++ lit " " ++ t)], s⟩]
  | .apiKey h k s => [⟨some [(h, k)], s⟩]
  | .custom md s => [⟨md, s⟩]
  | .composite cs => leavesAll cs
/-- The same for a list. -/
def leavesAll : List Cred → List Leaf
  | [] => []
  | c :: cs => leaves c ++ leavesAll cs
end

mutual
theorem requireSecurity_eq : ∀ c : Cred, requireSecurity c = (leaves c).any (·.secure)
  | .token _ _ => by simp [requireSecurity, leaves]
  | .source none _ _ => by simp [requireSecurity, leaves]
  | .source (some _) [] _ => by simp [requireSecurity, leaves]
  | .source (some _) (_ :: _) _ => by simp [requireSecurity, leaves]
  | .apiKey _ _ _ => by simp [requireSecurity, leaves]
  | .custom _ _ => by simp [requireSecurity, leaves]
  | .composite cs => by simp only [requireSecurity, leaves]; exact requireAny_eq cs
theorem requireAny_eq : ∀ cs : List Cred, requireAny cs = (leavesAll cs).any (·.secure)
  | [] => rfl
  | c :: cs => by
    simp only [requireAny, leavesAll, List.any_append]
    rw [requireSecurity_eq c, requireAny_eq cs]
    cases (leaves c).any (·.secure) <;> simp
end

/-- C45: if any basic credential, however deeply composed, demands transport security, then on
an insecure connection the call fails with the insecure-transport error; no credential is asked
for anything, no metadata changes and nothing is sent.  Conversely that error occurs only then. -/
theorem C45_insecure_is_refused (low : Str → Str) (order : SMap → SMap) (h : Heap) (secure : Bool)
    (optMD : Option Nat) (ctx : Ctx) (c : Cred) :
    ((∃ l ∈ leaves c, l.secure = true) → secure = false →
      applyCredentials low order h secure optMD ctx (some c) = (h, 0, .insecure) ∧
      openMetadata low order h secure optMD ctx (some c) = none) ∧
    ((applyCredentials low order h secure optMD ctx (some c)).2.2 = .insecure →
      (∃ l ∈ leaves c, l.secure = true) ∧ secure = false) := by
  have hr := requireSecurity_eq c
  have ha : (leaves c).any (·.secure) = true ↔ ∃ l ∈ leaves c, l.secure = true := by
    simp [List.any_eq_true]
  constructor
  · intro hl hs
    have : requireSecurity c = true := by rw [hr]; exact ha.mpr hl
    have hap : applyCredentials low order h secure optMD ctx (some c) = (h, 0, .insecure) := by
      simp [applyCredentials, this, hs]
    exact ⟨hap, by simp only [openMetadata, hap]⟩
  · intro he
    unfold applyCredentials at he
    simp only at he
    split at he
    · rename_i hc
      rw [hr] at hc
      exact ⟨ha.mp hc.1, by simpa using hc.2⟩
    · exfalso
      split at he
      · cases he
      · split at he
        · split at he <;> cases he
        · cases he

/-! ## Merging -/

/-- The last value given for a key. -/
def lastFor : List (Str × Str) → Str → Option Str
  | [], _ => none
  | (k', v) :: l, k =>
    match lastFor l k with
    | some x => some x
    | none => if k' = k then some v else none

/-- Everything the basic credentials supply, in order; `none` when one of them fails. -/
def supplied : List Leaf → Option (List (Str × Str))
  | [] => some []
  | l :: ls =>
    match l.md, supplied ls with
    | some m, some r => some (m ++ r)
    | _, _ => none

theorem look_put (m : SMap) (k k' v : Str) :
    (m.put k v).look k' = if k' = k then some v else m.look k' := by
  induction m with
  | nil =>
    by_cases h : k' = k
    · simp [SMap.put, SMap.look, h]
    · have : ¬ k = k' := fun e => h e.symm
      simp [SMap.put, SMap.look, h, this]
  | cons e m ih =>
    simp only [SMap.put]
    by_cases he : e.1 = k
    · rw [if_pos he]
      by_cases h : k' = k
      · simp [SMap.look, h]
      · have h1 : ¬ k = k' := fun e => h e.symm
        have h2 : ¬ e.1 = k' := fun x => h (by rw [← he, x])
        simp [SMap.look, h, h1, List.find?, h2]
    · rw [if_neg he]
      by_cases h : e.1 = k'
      · have h2 : ¬ k' = k := fun x => he (by rw [h, x])
        simp [SMap.look, List.find?, h, h2]
      · simp only [SMap.look, List.find?, h, decide_false] at ih ⊢
        exact ih

theorem look_merge (md : List (Str × Str)) (r : SMap) (k : Str) :
    (merge r md).look k = (lastFor md k).or (r.look k) := by
  induction md generalizing r with
  | nil => simp [merge, lastFor]
  | cons e md ih =>
    obtain ⟨k', v⟩ := e
    have : merge r ((k', v) :: md) = merge (r.put k' v) md := rfl
    rw [this, ih, look_put]
    simp only [lastFor]
    cases lastFor md k with
    | some x => simp
    | none =>
      by_cases h : k' = k
      · simp [h]
      · have h' : ¬ k = k' := fun e => h e.symm
        simp [h, h']

theorem lastFor_append (a b : List (Str × Str)) (k : Str) :
    lastFor (a ++ b) k = (lastFor b k).or (lastFor a k) := by
  induction a with
  | nil => simp [lastFor]
  | cons e a ih =>
    obtain ⟨k', v⟩ := e
    simp only [List.cons_append, lastFor, ih]
    cases lastFor b k <;> cases lastFor a k <;> simp

theorem supplied_append (a b : List Leaf) : supplied (a ++ b) =
    match supplied a, supplied b with
    | some x, some y => some (x ++ y)
    | _, _ => none := by
  induction a with
  | nil => simp only [List.nil_append, supplied]; cases supplied b <;> simp
  | cons l a ih =>
    simp only [List.cons_append, supplied, ih]
    cases l.md <;> cases supplied a <;> cases supplied b <;> simp

/-- Keys of a Go map are distinct; only a foreign implementation must be told. -/
def WellFormed (ls : List Leaf) : Prop :=
  ∀ l ∈ ls, ∀ m, l.md = some m → (m.map (·.1)).Nodup

theorem keys_put (m : SMap) (k v : Str) (x : Str) :
    x ∈ (m.put k v).map (·.1) ↔ x = k ∨ x ∈ m.map (·.1) := by
  induction m with
  | nil => simp [SMap.put]
  | cons e m ih =>
    simp only [SMap.put]
    by_cases he : e.1 = k
    · rw [if_pos he]; simp [← he]
    · rw [if_neg he]
      simp only [List.map_cons, List.mem_cons, ih]
      constructor
      · rintro (h | h | h)
        · exact Or.inr (Or.inl h)
        · exact Or.inl h
        · exact Or.inr (Or.inr h)
      · rintro (h | h | h)
        · exact Or.inr (Or.inl h)
        · exact Or.inl h
        · exact Or.inr (Or.inr h)

theorem nodup_put (m : SMap) (k v : Str) (h : (m.map (·.1)).Nodup) :
    ((m.put k v).map (·.1)).Nodup := by
  induction m with
  | nil => simp [SMap.put]
  | cons e m ih =>
    simp only [List.map_cons, List.nodup_cons] at h
    simp only [SMap.put]
    by_cases he : e.1 = k
    · rw [if_pos he]
      simp only [List.map_cons, List.nodup_cons]
      rw [← he]; exact h
    · rw [if_neg he]
      simp only [List.map_cons, List.nodup_cons]
      refine ⟨?_, ih h.2⟩
      rw [keys_put]
      rintro (hx | hx)
      · exact he hx
      · exact h.1 hx

theorem nodup_merge (md : List (Str × Str)) (r : SMap) (h : (r.map (·.1)).Nodup) :
    ((merge r md).map (·.1)).Nodup := by
  induction md generalizing r with
  | nil => exact h
  | cons e md ih => exact ih (r.put e.1 e.2) (nodup_put r _ _ h)

theorem look_nodup (m : SMap) (h : (m.map (·.1)).Nodup) (k : Str) : m.look k = lastFor m k := by
  induction m with
  | nil => rfl
  | cons e m ih =>
    obtain ⟨k', v⟩ := e
    simp only [List.map_cons, List.nodup_cons] at h
    have ih := ih h.2
    simp only [SMap.look, List.find?, lastFor] at ih ⊢
    by_cases hk : k' = k
    · subst hk
      have hn : List.find? (fun e => decide (e.1 = k')) m = none := by
        rw [List.find?_eq_none]
        intro x hx
        simp only [decide_eq_true_eq]
        intro e
        exact h.1 (List.mem_map.mpr ⟨x, hx, e⟩)
      rw [← ih, hn]
      simp
    · simp only [hk, decide_false, if_false]
      rw [ih]
      cases lastFor m k <;> rfl

mutual
theorem getMD_spec : ∀ (c : Cred), WellFormed (leaves c) →
    match supplied (leaves c) with
    | none => (getMD c).2 = none
    | some all => ∃ m, (getMD c).2 = some m ∧ (m.map (·.1)).Nodup ∧ ∀ k, m.look k = lastFor all k
  | .token t s, _ => by
    simp only [leaves, supplied, List.append_nil]
    exact ⟨_, rfl, by simp, fun k => look_nodup _ (by simp) k⟩
  | .source none _ _, _ => by simp [leaves, supplied, getMD]
  | .source (some t) [] s, _ => by
    simp only [leaves, supplied, List.append_nil]
    exact ⟨_, by simp only [getMD]; rfl, by simp, fun k => look_nodup _ (by simp) k⟩
  | .source (some t) (c :: ty) s, _ => by
    simp only [leaves, supplied, List.append_nil]
    exact ⟨_, by simp only [getMD]; rfl, by simp, fun k => look_nodup _ (by simp) k⟩
  | .apiKey hd k s, _ => by
    simp only [leaves, supplied, List.append_nil]
    exact ⟨_, rfl, by simp, fun k => look_nodup _ (by simp) k⟩
  | .custom none s, _ => by simp [leaves, supplied, getMD]
  | .custom (some m) s, hw => by
    have hm := hw ⟨some m, s⟩ (by simp [leaves]) m rfl
    simp only [leaves, supplied, List.append_nil]
    exact ⟨m, rfl, hm, fun k => look_nodup m hm k⟩
  | .composite cs, hw => by
    simp only [leaves]
    have := getAll_spec cs (by simpa only [leaves] using hw) [] (by simp)
    cases hs : supplied (leavesAll cs) with
    | none => rw [hs] at this; simpa only [getMD] using this
    | some all =>
      rw [hs] at this
      obtain ⟨m, h1, h2, h3⟩ := this
      refine ⟨m, by simpa only [getMD] using h1, h2, fun k => ?_⟩
      rw [h3 k]
      simp [SMap.look]
theorem getAll_spec : ∀ (cs : List Cred), WellFormed (leavesAll cs) → ∀ r : SMap,
    (r.map (·.1)).Nodup →
    match supplied (leavesAll cs) with
    | none => (getAll r cs).2 = none
    | some all => ∃ m, (getAll r cs).2 = some m ∧ (m.map (·.1)).Nodup ∧
        ∀ k, m.look k = (lastFor all k).or (r.look k)
  | [], _, r, hr => by
    simp only [leavesAll, supplied]
    exact ⟨r, rfl, hr, fun k => by simp [lastFor]⟩
  | c :: cs, hw, r, hr => by
    have hw1 : WellFormed (leaves c) := fun l hl => hw l (by simp [leavesAll, hl])
    have hw2 : WellFormed (leavesAll cs) := fun l hl => hw l (by simp [leavesAll, hl])
    have h1 := getMD_spec c hw1
    simp only [leavesAll, supplied_append]
    cases hs : supplied (leaves c) with
    | none =>
      rw [hs] at h1
      simp only
      simp only [getAll]
      cases hg : getMD c with
      | mk n o => rw [hg] at h1; simp only at h1; subst h1; rfl
    | some x =>
      rw [hs] at h1
      obtain ⟨m, g1, g2, g3⟩ := h1
      have h2 := getAll_spec cs hw2 (merge r m) (nodup_merge m r hr)
      cases hg : getMD c with
      | mk n o =>
        rw [hg] at g1; simp only at g1; subst g1
        cases hs2 : supplied (leavesAll cs) with
        | none =>
          rw [hs2] at h2
          simp only [getAll, hg]
          exact h2
        | some y =>
          rw [hs2] at h2
          obtain ⟨m', k1, k2, k3⟩ := h2
          simp only
          refine ⟨m', by simp only [getAll, hg]; exact k1, k2, fun k => ?_⟩
          rw [k3 k, look_merge, lastFor_append, ← g3 k, ← look_nodup m g2 k]
          cases lastFor y k <;> simp
end

/-- C45, merging: composed credentials, however deeply nested, supply for every key the value of
the last basic credential that gives one, and fail exactly when one of them fails. -/
theorem C45_later_wins (c : Cred) (hw : WellFormed (leaves c)) :
    ((getMD c).2 = none ↔ ∃ l ∈ leaves c, l.md = none) ∧
    ∀ m, (getMD c).2 = some m →
      ∃ all, supplied (leaves c) = some all ∧ ∀ k, m.look k = lastFor all k := by
  have hs : ∀ ls : List Leaf, supplied ls = none ↔ ∃ l ∈ ls, l.md = none := by
    intro ls
    induction ls with
    | nil => simp [supplied]
    | cons l ls ih =>
      simp only [supplied, List.mem_cons, exists_eq_or_imp, ← ih]
      cases l.md <;> cases supplied ls <;> simp
  have := getMD_spec c hw
  cases h : supplied (leaves c) with
  | none =>
    rw [h] at this
    refine ⟨⟨fun _ => (hs _).mp h, fun _ => this⟩, fun m hm => ?_⟩
    rw [this] at hm; cases hm
  | some all =>
    rw [h] at this
    obtain ⟨m, h1, _, h3⟩ := this
    refine ⟨⟨fun hn => ?_, fun hn => ?_⟩, fun m' hm => ?_⟩
    · rw [h1] at hn; cases hn
    · rw [(hs _).mpr hn] at h; cases h
    · rw [h1] at hm
      injection hm with hm
      subst hm
      exact ⟨all, rfl, h3⟩

/-! ## What is sent -/

theorem overlay_other (low : Str → Str) (kv : List (Str × Bytes)) (f : Dict Str Bytes) (x : Str)
    (h : ∀ e ∈ kv, low e.1 ≠ x) : overlay low f kv x = f x := by
  induction kv generalizing f with
  | nil => rfl
  | cons e kv ih =>
    obtain ⟨k, v⟩ := e
    simp only [overlay]
    rw [ih _ (fun e he => h e (by simp [he]))]
    have : ¬ x = low k := fun e => h (k, v) (by simp) e.symm
    simp [Dict.set, this]

theorem overlay_mem (low : Str → Str) (kv : List (Str × Bytes)) (f : Dict Str Bytes)
    (hd : (kv.map fun e => low e.1).Nodup) (k v : Str) (hm : (k, v) ∈ kv) :
    overlay low f kv (low k) = some v := by
  induction kv generalizing f with
  | nil => cases hm
  | cons e kv ih =>
    obtain ⟨k', v'⟩ := e
    simp only [List.map_cons, List.nodup_cons] at hd
    simp only [overlay]
    rcases List.mem_cons.mp hm with h | h
    · injection h with h1 h2
      subst h1 h2
      rw [overlay_other]
      · simp [Dict.set]
      · intro e he hc
        exact hd.1 (List.mem_map.mpr ⟨e, he, hc⟩)
    · exact ih _ hd.2 h

/-- The metadata map in use before credentials are added. -/
def chosen (optMD : Option Nat) (ctx : Ctx) : Option Nat :=
  match optMD, ctx with
  | some m, _ => some m
  | none, some (some m) => some m
  | none, _ => none

/-- C45 (when no two keys of the credential differ only in case): the Open message carries
exactly the metadata of the call, overlaid by what the credential supplies under lower-cased
keys, whatever order Go takes for the map.  The full claim drops that hypothesis;
`C45_case_variants_are_ambiguous` shows that the outcome then depends on the map order. -/
theorem C45_metadata_sent_partial (low : Str → Str) (order : SMap → SMap)
    (ho : ∀ m, (order m).Perm m) (h : Heap) (ok : h.Ok) (secure : Bool)
    (optMD : Option Nat) (ctx : Ctx) (c : Cred) (m : SMap)
    (hsec : requireSecurity c = true → secure = true) (hm : (getMD c).2 = some m)
    (hd : (m.map fun e => low e.1).Nodup)
    (hb : ∀ i, chosen optMD ctx = some i → i < h.maps.length) :
    ∃ sent, openMetadata low order h secure optMD ctx (some c) = some sent ∧
      (∀ k v, (k, v) ∈ m → sent (low k) = some v) ∧
      (∀ x, (∀ e ∈ m, low e.1 ≠ x) →
        sent x = match chosen optMD ctx with
          | some i => h.view i x
          | none => none) := by
  have hp := ho m
  have hd' : ((order m).map fun e => low e.1).Nodup :=
    (List.Perm.nodup_iff (hp.map fun e => low e.1)).mpr hd
  have hns : ¬ (requireSecurity c = true ∧ ¬ secure = true) := fun hc => hc.2 (hsec hc.1)
  have hch : baseMD optMD ctx = chosen optMD ctx := by
    cases optMD with
    | some i => rfl
    | none =>
      cases ctx with
      | none => rfl
      | some o => cases o <;> rfl
  unfold openMetadata applyCredentials
  simp only [hch]
  rw [if_neg hns]
  cases hg : getMD c with
  | mk n o =>
    rw [hg] at hm; simp only at hm; subst hm
    simp only
    by_cases hl : m.length > 0
    · rw [if_pos hl]
      cases hc : chosen optMD ctx with
      | none =>
        simp only
        have hlt : h.maps.length < h.newMap.maps.length := by simp [Heap.newMap]
        obtain ⟨_, _, hv⟩ := Heap.setPairs_spec low h.maps.length (order m) h.newMap ok.newMap hlt
        refine ⟨_, rfl, ?_, ?_⟩
        · intro k v hkv
          rw [hv, if_pos rfl]
          exact overlay_mem low _ _ hd' k v (hp.mem_iff.mpr hkv)
        · intro x hx
          rw [hv, if_pos rfl, overlay_other low _ _ x (fun e he => hx e (hp.mem_iff.mp he))]
          rw [Heap.view_newMap]
          exact Heap.view_none_of_ge h _ _ (Nat.le_refl _)
      | some i =>
        simp only
        obtain ⟨_, _, hv⟩ := Heap.setPairs_spec low i (order m) h ok (hb i hc)
        refine ⟨_, rfl, ?_, ?_⟩
        · intro k v hkv
          rw [hv, if_pos rfl]
          exact overlay_mem low _ _ hd' k v (hp.mem_iff.mpr hkv)
        · intro x hx
          rw [hv, if_pos rfl, overlay_other low _ _ x (fun e he => hx e (hp.mem_iff.mp he))]
    · rw [if_neg hl]
      have : m = [] := List.length_eq_zero_iff.mp (by omega)
      subst this
      cases hc : chosen optMD ctx with
      | none => exact ⟨_, rfl, fun k v h => (by cases h), fun x _ => rfl⟩
      | some i => exact ⟨_, rfl, fun k v h => (by cases h), fun x _ => rfl⟩

/-- With keys that differ only in case the value sent depends on Go's map order. -/
theorem C45_case_variants_are_ambiguous :
    ∃ (c : Cred) (o₁ o₂ : SMap → SMap), (∀ m, (o₁ m).Perm m) ∧ (∀ m, (o₂ m).Perm m) ∧
      ((openMetadata Str.lower o₁ ⟨[], []⟩ true none none (some c)).bind (· (lit "key"))) = some [1] ∧
      ((openMetadata Str.lower o₂ ⟨[], []⟩ true none none (some c)).bind (· (lit "key"))) = some [2] :=
  ⟨.composite [.apiKey (lit "Key") [2] true, .apiKey (lit "key") [1] true], id, List.reverse,
    fun m => List.Perm.refl m, fun m => List.reverse_perm m, by decide +kernel, by decide +kernel⟩

/-- C45 is false across calls: credentials are written into the caller's own metadata map.  A call
with a credential that demands security, on a secure connection, leaves the token in the map;
a later call with the same map, without credentials, sends it over an insecure connection. -/
theorem C45_token_leaks_through_the_callers_map :
    ∃ (c : Cred) (h : Heap) (m : Nat), requireSecurity c = true ∧
      h.view m (lit "authorization") = none ∧
      (openMetadata Str.lower id
        (applyCredentials Str.lower id h true (some m) none (some c)).1
        false (some m) none none).bind (· (lit "authorization")) = some (lit "Bearer secret") :=
  ⟨newToken (lit "Bearer") (lit "secret") true, ⟨[[]], []⟩, 0,
    by decide +kernel, by decide +kernel, by decide +kernel⟩

/-- The hypotheses of the theorems are met by an ordinary composition. -/
example : WellFormed (leaves (.composite [newToken (lit "Bearer") (lit "a") false,
      .composite [.apiKey (lit "x-key") (lit "k") true, .source (some (lit "t")) [] false]])) ∧
    (getMD (.composite [newToken (lit "Bearer") (lit "a") false,
      .composite [.apiKey (lit "x-key") (lit "k") true, .source (some (lit "t")) [] false]])).2 =
      some [(lit "authorization", lit "t"), (lit "x-key", lit "k")] ∧
    requireSecurity (.composite [newToken (lit "Bearer") (lit "a") false,
      .composite [.apiKey (lit "x-key") (lit "k") true]]) = true := by
  refine ⟨?_, by decide +kernel, by decide +kernel⟩
  intro l hl m hm
  simp only [newToken, leaves, leavesAll, List.mem_append, List.mem_cons, List.not_mem_nil,
    or_false] at hl
  rcases hl with h | h | h <;> subst h <;> (injection hm with hm; subst hm; simp)

end Claw.Credentials
