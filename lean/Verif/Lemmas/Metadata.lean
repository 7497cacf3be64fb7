import Verif.Model.Metadata

/-! # Lemmas about the metadata heap -/

namespace Claw.Metadata

open Claw

namespace AMap

theorem look_put (m : AMap) (k k' : Str) (b : Nat) :
    (m.put k b).look k' = if k' = k then some b else m.look k' := by
  induction m with
  | nil =>
    by_cases h : k' = k
    · subst h; simp [put, look]
    · have h' : ¬ k = k' := fun e => h e.symm
      simp [put, look, h, h']
  | cons e m ih =>
    unfold put
    by_cases he : e.1 = k
    · subst he
      by_cases h : k' = e.1
      · subst h; simp [look]
      · have h' : ¬ e.1 = k' := fun x => h x.symm
        simp [look, h, h']
    · simp only [he, if_false]
      by_cases h : e.1 = k'
      · have hk : ¬ k' = k := fun x => he (h.trans x)
        simp [look, h, hk]
      · have := ih
        simp only [look] at this ⊢
        simp [h, this]

theorem look_del (m : AMap) (k k' : Str) :
    (m.del k).look k' = if k' = k then none else m.look k' := by
  induction m with
  | nil => simp [del, look]
  | cons e m ih =>
    simp only [del, look] at ih ⊢
    by_cases he : e.1 = k
    · subst he
      by_cases h : k' = e.1
      · subst h
        simpa using ih
      · have h' : ¬ e.1 = k' := fun x => h x.symm
        simp only [List.filter_cons, List.find?_cons]
        simpa [h, h'] using ih
    · by_cases h : e.1 = k'
      · have hk : ¬ k' = k := fun x => he (h.trans x)
        simp [List.filter_cons, he, h, hk]
      · simp only [List.filter_cons, List.find?_cons]
        simp [he, h]
        simpa using ih

/-- Keys occur once. -/
def Ok (m : AMap) : Prop := (m.map (·.1)).Nodup

theorem mem_keys_put (m : AMap) (k k' : Str) (b : Nat) :
    k' ∈ (m.put k b).map (·.1) ↔ k' = k ∨ k' ∈ m.map (·.1) := by
  induction m with
  | nil => simp [put]
  | cons e m ih =>
    unfold put
    by_cases he : e.1 = k
    · subst he; simp
    · simp only [he, if_false, List.map_cons, List.mem_cons, ih]
      constructor
      · rintro (h | h | h)
        · exact Or.inr (Or.inl h)
        · exact Or.inl h
        · exact Or.inr (Or.inr h)
      · rintro (h | h | h)
        · exact Or.inr (Or.inl h)
        · exact Or.inl h
        · exact Or.inr (Or.inr h)

theorem Ok.put {m : AMap} (h : m.Ok) (k : Str) (b : Nat) : (m.put k b).Ok := by
  induction m with
  | nil => simp [AMap.put, Ok]
  | cons e m ih =>
    have hc : e.1 ∉ m.map (·.1) ∧ (m.map (·.1)).Nodup := by
      simpa [Ok, List.nodup_cons] using h
    unfold AMap.put
    by_cases he : e.1 = k
    · subst he
      simpa [Ok] using h
    · simp only [he, if_false]
      show ((e :: AMap.put m k b).map (·.1)).Nodup
      rw [List.map_cons, List.nodup_cons]
      refine ⟨?_, ih hc.2⟩
      rw [mem_keys_put]
      rintro (x | x)
      · exact he x
      · exact hc.1 x

theorem Ok.del {m : AMap} (h : m.Ok) (k : Str) : (m.del k).Ok := by
  unfold Ok AMap.del at *
  exact List.Sublist.nodup (List.Sublist.map _ List.filter_sublist) h

theorem look_of_mem {m : AMap} (h : m.Ok) {k : Str} {b : Nat} (hm : (k, b) ∈ m) :
    m.look k = some b := by
  induction m with
  | nil => cases hm
  | cons e m ih =>
    have hc : e.1 ∉ m.map (·.1) ∧ (m.map (·.1)).Nodup := by
      simpa [Ok, List.nodup_cons] using h
    rcases List.mem_cons.mp hm with h1 | h1
    · subst h1; simp [look]
    · have hne : ¬ e.1 = k := by
        intro x
        exact hc.1 (by rw [x]; exact List.mem_map.mpr ⟨_, h1, rfl⟩)
      have := ih hc.2 h1
      simpa [look, hne] using this

theorem look_cons (e : Str × Nat) (m : AMap) (k : Str) :
    AMap.look (e :: m) k = if e.1 = k then some e.2 else AMap.look m k := by
  by_cases h : e.1 = k <;> simp [look, h]

theorem look_none_of_not_mem {m : AMap} {k : Str} (h : k ∉ m.map (·.1)) : m.look k = none := by
  simp only [look, Option.map_eq_none_iff, List.find?_eq_none]
  intro e he
  simp only [decide_eq_true_eq]
  intro x
  exact h (List.mem_map.mpr ⟨e, he, x⟩)

end AMap

namespace Heap

/-- No dangling buffers, no buffer shared by two entries, keys unique. -/
structure Ok (h : Heap) : Prop where
  wf : ∀ m k b, h.look m k = some b → b < h.bufs.length
  inj : ∀ m k m' k' b, h.look m k = some b → h.look m' k' = some b → m = m' ∧ k = k'
  keys : ∀ m ∈ h.maps, m.Ok

theorem look_put (h : Heap) (m m' : Nat) (k k' : Str) (v : Bytes) (hm : m < h.maps.length) :
    (h.put m k v).look m' k' =
      if m' = m ∧ k' = k then some h.bufs.length else h.look m' k' := by
  unfold look put
  simp only [List.getElem?_modify]
  by_cases hmm : m' = m
  · subst hmm
    simp only [List.getElem?_eq_getElem hm, if_true, Option.map_eq_map, Option.map_some,
      Option.bind_some, AMap.look_put, true_and]
  · have : ¬ m = m' := fun x => hmm x.symm
    simp [this, hmm]

theorem view_put (h : Heap) (ok : h.Ok) (m m' : Nat) (k k' : Str) (v : Bytes)
    (hm : m < h.maps.length) :
    (h.put m k v).view m' k' = if m' = m ∧ k' = k then some v else h.view m' k' := by
  unfold view
  rw [look_put _ _ _ _ _ _ hm]
  by_cases hc : m' = m ∧ k' = k
  · simp [hc, put]
  · simp only [hc, if_false]
    cases hl : h.look m' k' with
    | none => rfl
    | some b =>
      have := ok.wf _ _ _ hl
      simp [put, List.getElem?_append_left this]

theorem Ok.put {h : Heap} (ok : h.Ok) (m : Nat) (k : Str) (v : Bytes) (hm : m < h.maps.length) :
    (h.put m k v).Ok := by
  have hlen : (h.put m k v).bufs.length = h.bufs.length + 1 := by simp [Heap.put]
  refine ⟨?_, ?_, ?_⟩
  · intro m' k' b hb
    rw [look_put _ _ _ _ _ _ hm] at hb
    rw [hlen]
    split at hb
    · injection hb; omega
    · have := ok.wf _ _ _ hb; omega
  · intro m1 k1 m2 k2 b h1 h2
    rw [look_put _ _ _ _ _ _ hm] at h1 h2
    split at h1 <;> split at h2
    · rename_i a1 a2; exact ⟨a1.1.trans a2.1.symm, a1.2.trans a2.2.symm⟩
    · injection h1 with h1; have := ok.wf _ _ _ h2; omega
    · injection h2 with h2; have := ok.wf _ _ _ h1; omega
    · exact ok.inj _ _ _ _ _ h1 h2
  · intro x hx
    unfold Heap.put at hx
    obtain ⟨i, hi, he⟩ := List.getElem_of_mem hx
    rw [List.getElem_modify] at he
    have hi' : i < h.maps.length := by simpa using hi
    split at he
    · rw [← he]; exact (ok.keys _ (List.getElem_mem hi')).put _ _
    · rw [← he]; exact ok.keys _ (List.getElem_mem hi')

theorem length_put (h : Heap) (m : Nat) (k : Str) (v : Bytes) :
    (h.put m k v).maps.length = h.maps.length := by simp [put]

theorem look_newMap (h : Heap) (m : Nat) (k : Str) : h.newMap.look m k = h.look m k := by
  unfold look newMap
  by_cases hm : m < h.maps.length
  · simp [List.getElem?_append_left hm]
  · have hn : h.maps[m]? = none := List.getElem?_eq_none (by omega)
    rw [List.getElem?_append_right (by omega), hn]
    cases h0 : m - h.maps.length with
    | zero => simp [AMap.look]
    | succ x => simp

theorem view_newMap (h : Heap) (m : Nat) (k : Str) : h.newMap.view m k = h.view m k := by
  unfold view
  rw [look_newMap]
  rfl

theorem Ok.newMap {h : Heap} (ok : h.Ok) : h.newMap.Ok := by
  refine ⟨?_, ?_, ?_⟩
  · intro m k b hb
    rw [look_newMap] at hb
    exact ok.wf _ _ _ hb
  · intro m k m' k' b h1 h2
    rw [look_newMap] at h1 h2
    exact ok.inj _ _ _ _ _ h1 h2
  · intro x hx
    simp only [Heap.newMap, List.mem_append, List.mem_singleton] at hx
    rcases hx with hx | hx
    · exact ok.keys x hx
    · subst hx; simp [AMap.Ok]

theorem view_none_of_ge (h : Heap) (m : Nat) (k : Str) (hm : h.maps.length ≤ m) :
    h.view m k = none := by
  simp [view, look, List.getElem?_eq_none hm]

theorem look_delete (low : Str → Str) (h : Heap) (m m' : Nat) (k : Str) (k' : Str) :
    (h.delete low m k).look m' k' = if m' = m ∧ k' = low k then none else h.look m' k' := by
  unfold look delete
  simp only [List.getElem?_modify]
  by_cases hmm : m' = m
  · subst hmm
    cases h.maps[m']? with
    | none => simp
    | some x => simp [AMap.look_del]
  · have : ¬ m = m' := fun x => hmm x.symm
    simp [this, hmm]

theorem view_delete (low : Str → Str) (h : Heap) (m m' : Nat) (k : Str) (k' : Str) :
    (h.delete low m k).view m' k' = if m' = m ∧ k' = low k then none else h.view m' k' := by
  unfold view
  rw [look_delete]
  split
  · rfl
  · rfl

theorem Ok.delete {h : Heap} (ok : h.Ok) (low : Str → Str) (m : Nat) (k : Str) :
    (h.delete low m k).Ok := by
  refine ⟨?_, ?_, ?_⟩
  · intro m' k' b hb
    rw [look_delete] at hb
    split at hb
    · cases hb
    · exact ok.wf _ _ _ hb
  · intro m1 k1 m2 k2 b h1 h2
    rw [look_delete] at h1 h2
    split at h1 <;> split at h2
    · cases h1
    · cases h1
    · cases h2
    · exact ok.inj _ _ _ _ _ h1 h2
  · intro x hx
    unfold Heap.delete at hx
    obtain ⟨i, hi, he⟩ := List.getElem_of_mem hx
    rw [List.getElem_modify] at he
    have hi' : i < h.maps.length := by simpa using hi
    split at he
    · rw [← he]; exact (ok.keys _ (List.getElem_mem hi')).del _
    · rw [← he]; exact ok.keys _ (List.getElem_mem hi')

/-- `copy(old, v)`. -/
def overwrite (v old : Bytes) : Bytes := v.take old.length ++ old.drop v.length

theorem look_scribble (low : Str → Str) (h : Heap) (m m' : Nat) (k k' : Str) (v : Bytes) :
    (h.scribble low m k v).look m' k' = h.look m' k' := by
  unfold scribble
  split <;> rfl

theorem view_scribble (low : Str → Str) (h : Heap) (ok : h.Ok) (m m' : Nat) (k k' : Str)
    (v : Bytes) :
    (h.scribble low m k v).view m' k' =
      if m' = m ∧ k' = low k then (h.view m' k').map (overwrite v) else h.view m' k' := by
  unfold view
  rw [look_scribble]
  cases hl : h.look m' k' with
  | none => simp
  | some b =>
    simp only [Option.bind_some]
    unfold scribble
    cases hb : h.look m (low k) with
    | none =>
      have : ¬ (m' = m ∧ k' = low k) := by
        rintro ⟨rfl, rfl⟩
        rw [hb] at hl; cases hl
      simp [this]
    | some b' =>
      simp only [List.getElem?_modify]
      by_cases hbb : b' = b
      · subst hbb
        have := ok.inj _ _ _ _ _ hl hb
        simp only [this, and_self, if_true, Option.map_eq_map]
        rfl
      · have : ¬ (m' = m ∧ k' = low k) := by
          rintro ⟨rfl, rfl⟩
          rw [hb] at hl
          injection hl with hl
          exact hbb hl
        simp [hbb, this]

theorem Ok.scribble {h : Heap} (ok : h.Ok) (low : Str → Str) (m : Nat) (k : Str) (v : Bytes) :
    (h.scribble low m k v).Ok := by
  have hlen : (h.scribble low m k v).bufs.length = h.bufs.length := by
    unfold Heap.scribble; split <;> simp
  have hmaps : (h.scribble low m k v).maps = h.maps := by
    unfold Heap.scribble; split <;> rfl
  refine ⟨?_, ?_, ?_⟩
  · intro m' k' b hb
    rw [look_scribble] at hb
    rw [hlen]
    exact ok.wf _ _ _ hb
  · intro m1 k1 m2 k2 b h1 h2
    rw [look_scribble] at h1 h2
    exact ok.inj _ _ _ _ _ h1 h2
  · rw [hmaps]; exact ok.keys

/-- Copying entries into `dst`: other maps keep their view and `dst` gets the copied ones. -/
theorem cloneLoop_spec (dst : Nat) : ∀ (es : AMap) (h : Heap) (ok : h.Ok)
    (_ : dst < h.maps.length) (_ : es.Ok) (_ : ∀ e ∈ es, e.2 < h.bufs.length),
    (h.cloneLoop dst es).Ok ∧ (h.cloneLoop dst es).maps.length = h.maps.length ∧
      ∀ m k, (h.cloneLoop dst es).view m k =
        if m = dst then (match es.look k with
          | some b => h.bufs[b]?
          | none => h.view m k) else h.view m k
  | [], h, ok, hd, _, _ => by
    refine ⟨ok, rfl, ?_⟩
    intro m k
    simp [cloneLoop, AMap.look]
  | (k0, b0) :: es, h, ok, hd, hes, hb => by
    have hc : k0 ∉ es.map (·.1) ∧ AMap.Ok es := by
      simpa [AMap.Ok, List.nodup_cons] using hes
    have hb0 : b0 < h.bufs.length := hb (k0, b0) (by simp)
    have hlen : (h.put dst k0 ((h.bufs[b0]?).getD [])).bufs.length = h.bufs.length + 1 := by
      simp [put]
    obtain ⟨i1, i2, i3⟩ := cloneLoop_spec dst es (h.put dst k0 ((h.bufs[b0]?).getD []))
      (ok.put dst k0 _ hd) (by rw [length_put]; exact hd) hc.2
      (by intro e he; have := hb e (by simp [he]); omega)
    refine ⟨i1, by simp only [cloneLoop]; rw [i2, length_put], ?_⟩
    intro m k
    simp only [cloneLoop]
    rw [i3 m k, view_put _ ok _ _ _ _ _ hd, AMap.look_cons]
    by_cases hm : m = dst
    · subst hm
      simp only [if_true, true_and]
      by_cases hk : k0 = k
      · subst hk
        rw [AMap.look_none_of_not_mem hc.1]
        simp [List.getElem?_eq_getElem hb0]
      · have hk' : ¬ k = k0 := fun x => hk x.symm
        simp only [hk, hk', if_false]
        cases hl : AMap.look es k with
        | none => rfl
        | some b =>
          have hbl : b < h.bufs.length := by
            unfold AMap.look at hl
            rw [Option.map_eq_some_iff] at hl
            obtain ⟨e, he, hbe⟩ := hl
            have := hb e (List.mem_cons_of_mem _ (List.mem_of_find?_eq_some he))
            omega
          simp [put, List.getElem?_append_left hbl]
    · simp [hm]

theorem clone_spec (h : Heap) (ok : h.Ok) (m : Nat) (hm : m < h.maps.length) :
    (h.clone m).1.Ok ∧ (h.clone m).2 = h.maps.length ∧
      (h.clone m).1.maps.length = h.maps.length + 1 ∧
      ∀ m' k, (h.clone m).1.view m' k = if m' = h.maps.length then h.view m k else h.view m' k := by
  have hel : h.maps[m]? = some h.maps[m] := List.getElem?_eq_getElem hm
  have hk := ok.keys _ (List.getElem_mem hm)
  have hlook : ∀ k, h.look m k = AMap.look h.maps[m] k := by
    intro k; simp [look, hel]
  have hw : ∀ e ∈ h.maps[m], e.2 < h.newMap.bufs.length := by
    intro e he
    have := AMap.look_of_mem hk (k := e.1) (b := e.2) he
    rw [← hlook] at this
    exact ok.wf _ _ _ this
  obtain ⟨i1, i2, i3⟩ := cloneLoop_spec h.maps.length h.maps[m] h.newMap ok.newMap
    (by simp [newMap]) hk hw
  unfold clone
  simp only [hel, Option.getD_some]
  refine ⟨i1, trivial, by rw [i2]; simp [newMap], ?_⟩
  intro m' k
  rw [i3 m' k]
  by_cases hmm : m' = h.maps.length
  · simp only [hmm, if_true]
    unfold view
    rw [hlook]
    cases hl : AMap.look h.maps[m] k with
    | none => rw [look_newMap]; simp [look]
    | some b => rfl
  · simp only [hmm, if_false, view_newMap]

/-- What setting pairs does to a pure map. -/
def overlay (low : Str → Str) (f : Dict Str Bytes) : List (Str × Bytes) → Dict Str Bytes
  | [] => f
  | (k, v) :: kv => overlay low (f.set (low k) v) kv

theorem setPairs_spec (low : Str → Str) (m : Nat) : ∀ (kv : List (Str × Bytes)) (h : Heap),
    h.Ok → m < h.maps.length →
    (h.setPairs low m kv).Ok ∧ (h.setPairs low m kv).maps.length = h.maps.length ∧
      ∀ m' k, (h.setPairs low m kv).view m' k =
        if m' = m then overlay low (h.view m) kv k else h.view m' k
  | [], h, ok, hm => by
    refine ⟨ok, rfl, ?_⟩
    intro m' k
    by_cases h' : m' = m
    · simp [setPairs, overlay, h']
    · simp [setPairs, h']
  | (k0, v0) :: kv, h, ok, hm => by
    obtain ⟨i1, i2, i3⟩ := setPairs_spec low m kv (h.put m (low k0) v0)
      (ok.put _ _ _ hm) (by rw [length_put]; exact hm)
    refine ⟨i1, by simp only [setPairs, set]; rw [i2, length_put], ?_⟩
    intro m' k
    simp only [setPairs, set, overlay]
    rw [i3 m' k]
    have hv : (h.put m (low k0) v0).view m = Dict.set (h.view m) (low k0) v0 := by
      funext x
      rw [view_put _ ok _ _ _ _ _ hm]
      simp [Dict.set]
    rw [hv]
    by_cases h' : m' = m
    · simp [h']
    · simp only [h', if_false]
      rw [view_put _ ok _ _ _ _ _ hm]
      simp [h']

end Heap
end Claw.Metadata
