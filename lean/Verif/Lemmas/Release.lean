import Verif.Lemmas.Within
import Verif.Lemmas.View
import Verif.Spec.Release

/-!
# The pools never hold what is in use, and what they hold looks new
-/

namespace Claw

theorem specRun_snoc (m : Nat) (ops : List Op) (op : Op) : specRun m (ops ++ [op]) = op.spec (specRun m ops) := by
  have happ : ∀ (a : List Op) r, specOps (a ++ [op]) r = op.spec (specOps a r) := by
    intro a; induction a with
    | nil => intro r; rfl
    | cons x a ih => intro r; simp [specOps, ih]
  simp [specRun, happ]

theorem withinFrom_snoc (m : Nat) (ops : List Op) (op : Op) : ∀ r, WithinFrom m (ops ++ [op]) r →
    WithinFrom m ops r ∧ op.Within m ∧ 8 + sizes (op.spec (specOps ops r)) < 2 ^ 32 := by
  induction ops with
  | nil => intro r h; exact ⟨trivial, h.1, h.2.1⟩
  | cons x ops ih =>
    intro r h
    obtain ⟨h1, h2, h3⟩ := ih _ h.2.2
    exact ⟨⟨h.1, h.2.1, h1⟩, h2, h3⟩

theorem within_snoc {m : Nat} {ops : List Op} {op : Op} (h : Within m (ops ++ [op])) :
    Within m ops ∧ op.Within m ∧ 8 + sizes (op.spec (specRun m ops)) < 2 ^ 32 := by
  obtain ⟨h1, h2, h3⟩ := withinFrom_snoc m ops op _ h.2
  exact ⟨⟨h.1, h1⟩, h2, h3⟩

theorem reset_eq {g : Seg} (h : 8 ≤ g.data.length) : ∃ g', g.reset = .ok g' ∧ g'.data = zeros 8 ∧ g'.data.length = 8 ∧
    g'.spare = (g.data ++ g.spare).drop 8 := by
  refine ⟨⟨zeros 8, (g.data ++ g.spare).drop 8⟩, ?_, rfl, zeros_length 8, rfl⟩
  simp only [Seg.reset]
  rw [if_neg (by simp only [Seg.cap]; omega)]

theorem renew_eq {g : Seg} (h : g.data = zeros 8) : g.renew = .ok ⟨hdr 0 FTStruct 8, g.spare⟩ := by
  have ht : g.data.take 8 = zeros 8 := by rw [h]; exact List.take_of_length_le (by simp [zeros_length])
  have hd : g.data.drop 8 = [] := by rw [h]; exact List.drop_of_length_le (by simp [zeros_length])
  have he := encodeHeaderAt_eq (buf := zeros 8) (by simp [zeros_length]) 0 FTStruct (f := 8) (by decide)
  simp only [Seg.renew, ht, hd, he, Res.ofOption, Res.ok_bind, Res.pure_eq]
  simp [List.drop_of_length_le, zeros_length]

/-- A struct of a new segment, whatever bytes lie behind it. -/
theorem renewed_rep (m : Nat) (sp : Bytes) :
    Rep 0 ⟨⟨hdr 0 FTStruct 8, sp⟩, List.replicate m Entry.zero, false, false, none, false, []⟩ (encs (List.replicate m .absent) 0) := by
  rw [encs_replicate]
  have hblob : ∀ i, blob (List.replicate m []) i = [] := by
    intro i; simp only [blob, List.getD_eq_getElem?_getD, List.getElem?_replicate]; split <;> rfl
  refine ⟨by simp [total], by simp, fun i => Or.inl (hblob i), by simp [total], by simp, ?_⟩
  intro _ i hi _
  simp only [List.length_replicate] at hi
  simp [hi]

theorem setNested_data (s : St) (fn : Nat) {c c' : St} (h : c.seg.data = c'.seg.data) :
    setNestedStruct s fn (some c) = setNestedStruct s fn (some c') := by
  simp only [setNestedStruct, h]

namespace Release

/-- What the calls on a struct make of it. -/
structure Good (fields : Nat → Nat) (s : State) (o : Obj) : Prop where
  within : Within (fields o.kind) o.calls
  rep : Rep 0 (s.st o) (encs (specRun (fields o.kind) o.calls) 0)
  len : (s.idxs o.idx).length = fields o.kind
  off : o.isSetEnabled = false

structure Inv (fields : Nat → Nat) (s : State) : Prop where
  apart : ∀ h h' o o', s.objs h = some o → s.objs h' = some o' → h ≠ h' → o.seg ≠ o'.seg ∧ o.idx ≠ o'.idx
  made : ∀ h o, s.objs h = some o → h < s.made
  known : ∀ h o, s.objs h = some o → o.seg < s.nextSeg ∧ o.idx < s.nextIdx
  used : ∀ h o, s.objs h = some o → (∀ k, (k, o.seg) ∉ s.freeSegs) ∧ ∀ k, (k, o.idx) ∉ s.freeIdxs
  segs : ∀ k a, (k, a) ∈ s.freeSegs → a < s.nextSeg ∧ (s.segs a).data = zeros 8
  idxs : ∀ k b, (k, b) ∈ s.freeIdxs → b < s.nextIdx ∧ s.idxs b = List.replicate (fields k) Entry.zero
  onceSeg : (s.freeSegs.map Prod.snd).Nodup
  onceIdx : (s.freeIdxs.map Prod.snd).Nodup
  good : ∀ h o, s.objs h = some o → Good fields s o

theorem set_same {α : Type} (f : Nat → α) (i : Nat) (x : α) : set f i x i = x := by simp [set]
theorem set_other {α : Type} (f : Nat → α) {i j : Nat} (x : α) (h : j ≠ i) : set f i x j = f j := by simp [set, h]

/-- A struct looks the same if its memory does. -/
theorem Good.congr {fields : Nat → Nat} {s s' : State} {o : Obj} (h : Good fields s o) (h1 : s'.segs o.seg = s.segs o.seg)
    (h2 : s'.idxs o.idx = s.idxs o.idx) : Good fields s' o := by
  refine ⟨h.within, ?_, by rw [h2]; exact h.len, h.off⟩
  have : s'.st o = s.st o := by simp [State.st, h1, h2]
  rw [this]; exact h.rep

theorem once_erase {l : List (Nat × Nat)} (h : (l.map Prod.snd).Nodup) {k a : Nat} (hm : (k, a) ∈ l) :
    ((l.erase (k, a)).map Prod.snd).Nodup ∧ ∀ k', (k', a) ∉ l.erase (k, a) := by
  induction l with
  | nil => cases hm
  | cons x l ih =>
    simp only [List.map_cons, List.nodup_cons] at h
    by_cases hx : x = (k, a)
    · subst hx
      rw [List.erase_cons_head]
      exact ⟨h.2, fun k' hk' => h.1 (List.mem_map.mpr ⟨_, hk', rfl⟩)⟩
    · rw [List.erase_cons_tail (by simpa using hx)]
      have hm' : (k, a) ∈ l := by
        rcases List.mem_cons.mp hm with e | e
        · exact absurd e.symm hx
        · exact e
      obtain ⟨h1, h2⟩ := ih h.2 hm'
      refine ⟨?_, ?_⟩
      · simp only [List.map_cons, List.nodup_cons]
        refine ⟨fun hc => h.1 ?_, h1⟩
        obtain ⟨y, hy, e⟩ := List.mem_map.mp hc
        exact List.mem_map.mpr ⟨y, List.mem_of_mem_erase hy, e⟩
      · intro k' hk'
        rcases List.mem_cons.mp hk' with e | e
        · apply h.1
          rw [← e]
          exact List.mem_map.mpr ⟨_, hm', rfl⟩
        · exact h2 k' e

/-- A call on one struct that keeps its record. -/
theorem put_inv {fields : Nat → Nat} {s : State} (inv : Inv fields s) {h : Nat} {o : Obj} (ho : s.objs h = some o) {t : St} {op : Op}
    (hw : Within (fields o.kind) (o.calls ++ [op])) (hr : Rep 0 t (encs (specRun (fields o.kind) (o.calls ++ [op])) 0))
    (hl : t.idx.length = fields o.kind) (he : t.isSetEnabled = false) : Inv fields (s.put h o t op) := by
  have hobj : ∀ h' o', (s.put h o t op).objs h' = some o' →
      (h' = h ∧ o' = ⟨o.kind, o.seg, o.idx, t.parsed, t.isSetEnabled, t.isSetBits, t.recording, t.ops, o.calls ++ [op]⟩) ∨
      (h' ≠ h ∧ s.objs h' = some o') := by
    intro h' o' e
    simp only [State.put, set] at e
    by_cases hh : h' = h
    · left; rw [if_pos hh] at e; exact ⟨hh, by simpa using e.symm⟩
    · right; rw [if_neg hh] at e; exact ⟨hh, e⟩
  have hsame : ∀ h' o', (s.put h o t op).objs h' = some o' → ∃ o'', s.objs h' = some o'' ∧ o''.seg = o'.seg ∧ o''.idx = o'.idx := by
    intro h' o' e
    rcases hobj h' o' e with ⟨rfl, rfl⟩ | ⟨_, e⟩
    · exact ⟨o, ho, rfl, rfl⟩
    · exact ⟨o', e, rfl, rfl⟩
  refine ⟨?_, ?_, ?_, ?_, ?_, ?_, inv.onceSeg, inv.onceIdx, ?_⟩
  · intro h1 h2 o1 o2 e1 e2 hne
    obtain ⟨p1, f1, a1, b1⟩ := hsame h1 o1 e1
    obtain ⟨p2, f2, a2, b2⟩ := hsame h2 o2 e2
    rw [← a1, ← a2, ← b1, ← b2]
    exact inv.apart h1 h2 p1 p2 f1 f2 hne
  · intro h1 o1 e1
    obtain ⟨p1, f1, _, _⟩ := hsame h1 o1 e1
    exact inv.made h1 p1 f1
  · intro h1 o1 e1
    obtain ⟨p1, f1, a1, b1⟩ := hsame h1 o1 e1
    rw [← a1, ← b1]; exact inv.known h1 p1 f1
  · intro h1 o1 e1
    obtain ⟨p1, f1, a1, b1⟩ := hsame h1 o1 e1
    rw [← a1, ← b1]; exact inv.used h1 p1 f1
  · intro k a ha
    have hne : a ≠ o.seg := by rintro rfl; exact (inv.used h o ho).1 k ha
    simp only [State.put, set_other _ _ hne]
    exact inv.segs k a ha
  · intro k b hb
    have hne : b ≠ o.idx := by rintro rfl; exact (inv.used h o ho).2 k hb
    simp only [State.put, set_other _ _ hne]
    exact inv.idxs k b hb
  · intro h1 o1 e1
    rcases hobj h1 o1 e1 with ⟨_, rfl⟩ | ⟨hne, e⟩
    · refine ⟨hw, ?_, by simp only [State.put, set_same]; exact hl, he⟩
      have : (s.put h o t op).st ⟨o.kind, o.seg, o.idx, t.parsed, t.isSetEnabled, t.isSetBits, t.recording, t.ops, o.calls ++ [op]⟩ = t := by
        simp only [State.st, State.put, set_same]
      rw [this]; exact hr
    · obtain ⟨x, y⟩ := inv.apart h1 h o1 o e ho hne
      exact (inv.good h1 o1 e).congr (by simp only [State.put, set_other _ _ x]) (by simp only [State.put, set_other _ _ y])

theorem new_inv {fields : Nat → Nat} {s : State} (inv : Inv fields s) {k : Nat} {g i : Option Nat}
    (ha : Allowed fields s (.new k g i)) : ∃ s', step fields s (.new k g i) = .ok s' ∧ Inv fields s' := by
  obtain ⟨hk, hg, hi⟩ := ha
  -- the segment
  obtain ⟨a, s1, e1, i1, ha1, ha2, ha3, ha4, hi1, ho1⟩ : ∃ a s1, s.takeSeg k g = (a, s1) ∧ Inv fields s1 ∧ a < s1.nextSeg ∧
      (∀ k', (k', a) ∉ s1.freeSegs) ∧ (s1.segs a).data = zeros 8 ∧ (∀ h o, s1.objs h = some o → o.seg ≠ a) ∧
      s1.freeIdxs = s.freeIdxs ∧ s1.made = s.made := by
    cases g with
    | none =>
      refine ⟨_, _, rfl, ?_, Nat.lt_succ_self _, ?_, ?_, ?_, rfl, rfl⟩
      · have hlt : ∀ j, j < s.nextSeg → set s.segs s.nextSeg (Seg.new 64) j = s.segs j := fun j hj => set_other _ _ (by omega)
        refine ⟨inv.apart, inv.made, ?_, inv.used, ?_, inv.idxs, inv.onceSeg, inv.onceIdx, ?_⟩
        · intro h o ho; exact ⟨Nat.lt_succ_of_lt (inv.known h o ho).1, (inv.known h o ho).2⟩
        · intro k' a' ha'
          have := inv.segs k' a' ha'
          exact ⟨Nat.lt_succ_of_lt this.1, by simp only [hlt a' this.1]; exact this.2⟩
        · intro h o ho
          exact (inv.good h o ho).congr (hlt _ (inv.known h o ho).1) rfl
      · intro k' hk'; exact absurd (inv.segs k' _ hk').1 (Nat.lt_irrefl _)
      · simp only [set_same]; rfl
      · intro h o ho e
        have := (inv.known h o ho).1
        omega
    | some a =>
      have hm := hg a rfl
      obtain ⟨hn, hx⟩ := once_erase inv.onceSeg hm
      refine ⟨_, _, rfl, ?_, (inv.segs k a hm).1, hx, (inv.segs k a hm).2, ?_, rfl, rfl⟩
      · refine ⟨inv.apart, inv.made, inv.known, ?_, ?_, inv.idxs, hn, inv.onceIdx, fun h o ho => (inv.good h o ho).congr rfl rfl⟩
        · intro h o ho
          exact ⟨fun k' hk' => (inv.used h o ho).1 k' (List.mem_of_mem_erase hk'), (inv.used h o ho).2⟩
        · intro k' a' ha'; exact inv.segs k' a' (List.mem_of_mem_erase ha')
      · intro h o ho e
        exact (inv.used h o ho).1 k (e ▸ hm)
  -- the index
  obtain ⟨b, s2, e2, i2, hb1, hb2, hb3, hb4, ha1', ha2', ha3', ha4', ho2⟩ : ∃ b s2, s1.takeIdx fields k i = (b, s2) ∧ Inv fields s2 ∧
      b < s2.nextIdx ∧ (∀ k', (k', b) ∉ s2.freeIdxs) ∧ s2.idxs b = List.replicate (fields k) Entry.zero ∧
      (∀ h o, s2.objs h = some o → o.idx ≠ b) ∧ a < s2.nextSeg ∧ (∀ k', (k', a) ∉ s2.freeSegs) ∧ (s2.segs a).data = zeros 8 ∧
      (∀ h o, s2.objs h = some o → o.seg ≠ a) ∧ s2.made = s.made := by
    cases i with
    | none =>
      refine ⟨_, _, rfl, ?_, Nat.lt_succ_self _, ?_, set_same _ _ _, ?_, ha1, ha2, ha3, ha4, ho1⟩
      · have hlt : ∀ j, j < s1.nextIdx → set s1.idxs s1.nextIdx (List.replicate (fields k) Entry.zero) j = s1.idxs j :=
          fun j hj => set_other _ _ (by omega)
        refine ⟨i1.apart, i1.made, ?_, i1.used, i1.segs, ?_, i1.onceSeg, i1.onceIdx, ?_⟩
        · intro h o ho; exact ⟨(i1.known h o ho).1, Nat.lt_succ_of_lt (i1.known h o ho).2⟩
        · intro k' b' hb'
          have := i1.idxs k' b' hb'
          exact ⟨Nat.lt_succ_of_lt this.1, by simp only [hlt b' this.1]; exact this.2⟩
        · intro h o ho
          exact (i1.good h o ho).congr rfl (hlt _ (i1.known h o ho).2)
      · intro k' hk'; exact absurd (i1.idxs k' _ hk').1 (Nat.lt_irrefl _)
      · intro h o ho e
        have := (i1.known h o ho).2
        omega
    | some b =>
      have hm : (k, b) ∈ s1.freeIdxs := by rw [hi1]; exact hi b rfl
      obtain ⟨hn, hx⟩ := once_erase i1.onceIdx hm
      refine ⟨_, _, rfl, ?_, (i1.idxs k b hm).1, hx, (i1.idxs k b hm).2, ?_, ha1, ha2, ha3, ha4, ho1⟩
      · refine ⟨i1.apart, i1.made, i1.known, ?_, i1.segs, ?_, i1.onceSeg, hn, fun h o ho => (i1.good h o ho).congr rfl rfl⟩
        · intro h o ho
          exact ⟨(i1.used h o ho).1, fun k' hk' => (i1.used h o ho).2 k' (List.mem_of_mem_erase hk')⟩
        · intro k' b' hb'; exact i1.idxs k' b' (List.mem_of_mem_erase hb')
      · intro h o ho e
        exact (i1.used h o ho).2 k (e ▸ hm)
  refine ⟨{ s2 with
      segs := set s2.segs a ⟨hdr 0 FTStruct 8, (s2.segs a).spare⟩
      objs := set s2.objs s2.made (some ⟨k, a, b, false, false, none, false, [], []⟩)
      made := s2.made + 1 }, ?_, ?_⟩
  · simp only [step, e1, e2, renew_eq ha3', Res.ok_bind, Res.pure_eq]
  · have hfresh : ∀ h o, s2.objs h = some o → h ≠ s2.made := by
      intro h o ho; exact Nat.ne_of_lt (i2.made h o ho)
    have hobj : ∀ h o, set s2.objs s2.made (some ⟨k, a, b, false, false, none, false, [], []⟩) h = some o →
        (h = s2.made ∧ o = ⟨k, a, b, false, false, none, false, [], []⟩) ∨ s2.objs h = some o := by
      intro h o e
      simp only [set] at e
      by_cases hh : h = s2.made
      · left; rw [if_pos hh] at e; exact ⟨hh, by simpa using e.symm⟩
      · right; rwa [if_neg hh] at e
    refine ⟨?_, ?_, ?_, ?_, ?_, i2.idxs, i2.onceSeg, i2.onceIdx, ?_⟩
    · intro h h' o o' e e' hne
      rcases hobj h o e with ⟨rfl, rfl⟩ | e <;> rcases hobj h' o' e' with ⟨rfl, rfl⟩ | e'
      · exact absurd rfl hne
      · exact ⟨(ha4' h' o' e').symm, (hb4 h' o' e').symm⟩
      · exact ⟨ha4' h o e, hb4 h o e⟩
      · exact i2.apart h h' o o' e e' hne
    · intro h o e
      rcases hobj h o e with ⟨rfl, _⟩ | e
      · exact Nat.lt_succ_self _
      · exact Nat.lt_succ_of_lt (i2.made h o e)
    · intro h o e
      rcases hobj h o e with ⟨_, rfl⟩ | e
      · exact ⟨ha1', hb1⟩
      · exact i2.known h o e
    · intro h o e
      rcases hobj h o e with ⟨_, rfl⟩ | e
      · exact ⟨ha2', hb2⟩
      · exact i2.used h o e
    · intro k' a' ha'
      have hne : a' ≠ a := by rintro rfl; exact ha2' k' ha'
      simp only [set_other _ _ hne]
      exact i2.segs k' a' ha'
    · intro h o e
      rcases hobj h o e with ⟨_, rfl⟩ | e
      · refine ⟨⟨hk, trivial⟩, ?_, by simp only [hb3, List.length_replicate], rfl⟩
        simp only [State.st, set_same, hb3]
        exact renewed_rep (fields k) _
      · exact (i2.good h o e).congr (by simp only [set_other _ _ (ha4' h o e)]) rfl

theorem release_inv {fields : Nat → Nat} {s : State} (inv : Inv fields s) {h : Nat} (ha : Allowed fields s (.release h)) :
    ∃ s', step fields s (.release h) = .ok s' ∧ Inv fields s' := by
  obtain ⟨o, ho⟩ := ha
  have hgood := inv.good h o ho
  have hd : (s.segs o.seg).data = hdr 0 FTStruct (total (encs (specRun (fields o.kind) o.calls) 0)) ++
    (encs (specRun (fields o.kind) o.calls) 0).flatten := hgood.rep.data
  obtain ⟨g, hg, hz, _, _⟩ := reset_eq (g := s.segs o.seg) (by rw [hd]; simp)
  have hmap : (s.idxs o.idx).map (fun _ => Entry.zero) = List.replicate (fields o.kind) Entry.zero := by
    rw [← hgood.len]; simp [List.map_const']
  refine ⟨{ s with
      segs := set s.segs o.seg g
      idxs := set s.idxs o.idx ((s.idxs o.idx).map fun _ => Entry.zero)
      freeSegs := (o.kind, o.seg) :: s.freeSegs
      freeIdxs := (o.kind, o.idx) :: s.freeIdxs
      objs := set s.objs h none }, ?_, ?_⟩
  · simp only [step, ho, hg, Res.ok_bind, Res.pure_eq]
  · have hobj : ∀ h' o', set s.objs h none h' = some o' → h' ≠ h ∧ s.objs h' = some o' := by
      intro h' o' e
      simp only [set] at e
      by_cases hh : h' = h
      · rw [if_pos hh] at e; cases e
      · rw [if_neg hh] at e; exact ⟨hh, e⟩
    have hnseg : o.seg ∉ s.freeSegs.map Prod.snd := by
      intro hc
      obtain ⟨⟨k, a⟩, hy, e⟩ := List.mem_map.mp hc
      simp only at e
      subst e
      exact (inv.used h o ho).1 k hy
    have hnidx : o.idx ∉ s.freeIdxs.map Prod.snd := by
      intro hc
      obtain ⟨⟨k, a⟩, hy, e⟩ := List.mem_map.mp hc
      simp only at e
      subst e
      exact (inv.used h o ho).2 k hy
    refine ⟨?_, ?_, ?_, ?_, ?_, ?_, ?_, ?_, ?_⟩
    · intro h1 h2 o1 o2 x1 x2 hne
      exact inv.apart h1 h2 o1 o2 (hobj _ _ x1).2 (hobj _ _ x2).2 hne
    · intro h1 o1 x1; exact inv.made h1 o1 (hobj _ _ x1).2
    · intro h1 o1 x1; exact inv.known h1 o1 (hobj _ _ x1).2
    · intro h1 o1 x1
      obtain ⟨hne, x1⟩ := hobj _ _ x1
      obtain ⟨y1, y2⟩ := inv.apart h1 h o1 o x1 ho hne
      obtain ⟨z1, z2⟩ := inv.used h1 o1 x1
      refine ⟨fun k hk => ?_, fun k hk => ?_⟩
      · rcases List.mem_cons.mp hk with e | e
        · exact y1 (by simpa using (Prod.mk.inj e).2)
        · exact z1 k e
      · rcases List.mem_cons.mp hk with e | e
        · exact y2 (by simpa using (Prod.mk.inj e).2)
        · exact z2 k e
    · intro k a hm
      by_cases hh : a = o.seg
      · subst hh
        exact ⟨(inv.known h o ho).1, by simp only [set_same]; exact hz⟩
      · simp only [set_other _ _ hh]
        rcases List.mem_cons.mp hm with e | e
        · exact absurd (Prod.mk.inj e).2 hh
        · exact inv.segs k a e
    · intro k b hm
      rcases List.mem_cons.mp hm with e | e
      · obtain ⟨rfl, rfl⟩ := Prod.mk.inj e
        exact ⟨(inv.known h o ho).2, by simp only [set_same]; exact hmap⟩
      · have hne : b ≠ o.idx := by rintro rfl; exact (inv.used h o ho).2 k e
        simp only [set_other _ _ hne]
        exact inv.idxs k b e
    · simp only [List.map_cons, List.nodup_cons]; exact ⟨hnseg, inv.onceSeg⟩
    · simp only [List.map_cons, List.nodup_cons]; exact ⟨hnidx, inv.onceIdx⟩
    · intro h1 o1 x1
      obtain ⟨hne, x1⟩ := hobj _ _ x1
      obtain ⟨y1, y2⟩ := inv.apart h1 h o1 o x1 ho hne
      exact (inv.good h1 o1 x1).congr (by simp only [set_other _ _ y1]) (by simp only [set_other _ _ y2])

theorem call_inv {fields : Nat → Nat} {s : State} (inv : Inv fields s) {h : Nat} {o : Obj} {op : Op} (ho : s.objs h = some o)
    (hw : Within (fields o.kind) (o.calls ++ [op])) : ∃ t, op.run (s.st o) = .ok t ∧ Inv fields (s.put h o t op) := by
  obtain ⟨h1, h2, h3⟩ := within_snoc hw
  have hgood := inv.good h o ho
  have hlen : (specRun (fields o.kind) o.calls).length = fields o.kind := by simp [specRun, specOps_length]
  have hl : (s.st o).idx.length = fields o.kind := hgood.len
  obtain ⟨t, e, hr, hc⟩ := op_within op hgood.rep (by rw [hl, hlen]; exact Nat.le_refl _) (by rw [hlen]; exact h1.1) (by rw [hl]; exact h2) h3
  refine ⟨t, e, put_inv inv ho hw (by rw [specRun_snoc]; exact hr) (by rw [hc.len, hl]) ?_⟩
  rw [hc.enabled]; exact hgood.off

theorem step_inv {fields : Nat → Nat} {s : State} (inv : Inv fields s) {act : Act} (ha : Allowed fields s act) :
    ∃ s', step fields s act = .ok s' ∧ Inv fields s' := by
  match act with
  | .new k g i => exact new_inv inv ha
  | .release h => exact release_inv inv ha
  | .call h op =>
    obtain ⟨o, ho, hw⟩ := ha
    obtain ⟨t, e, hi⟩ := call_inv inv ho hw
    exact ⟨_, by simp only [step, ho, e, Res.ok_bind, Res.pure_eq], hi⟩
  | .embed h fn c =>
    obtain ⟨_, o, p, ho, hp, hw⟩ := ha
    obtain ⟨t, e, hi⟩ := call_inv inv ho hw
    have hgp := inv.good c p hp
    obtain ⟨c0, hc0, hr0, hlen0, _⟩ := new_rep (fields p.kind)
    obtain ⟨d, hd, hdr', _⟩ := ops_within p.calls hr0 (by simp [hlen0]) (by simpa using hgp.within.1)
      (by rw [hlen0]; exact hgp.within.2)
    simp only [Op.run, hc0, Res.ok_bind, hd] at e
    rw [setNested_data (c' := s.st p) _ _ (by rw [hdr'.data, hgp.rep.data]; rfl)] at e
    exact ⟨_, by simp only [step, ho, hp, e, Res.ok_bind, Res.pure_eq], hi⟩

theorem init_inv (fields : Nat → Nat) : Inv fields init := by
  have hobj : ∀ h o, ¬ init.objs h = some o := by intro h o e; simp [init] at e
  refine ⟨fun h _ o _ e => absurd e (hobj h o), fun h o e => absurd e (hobj h o), fun h o e => absurd e (hobj h o),
    fun h o e => absurd e (hobj h o), ?_, ?_, by simp [init], by simp [init], fun h o e => absurd e (hobj h o)⟩
  · intro k a h; simp [init] at h
  · intro k a h; simp [init] at h

end Release

end Claw
