import Verif.Model.Alias
import Verif.Lemmas.Same

/-!
# What a call on a struct does to the memory behind it
-/

namespace Claw

/-- The whole array. -/
def Seg.all (g : Seg) : Bytes := g.data ++ g.spare

/-- `g'` lives in the same array as `g` and beyond `K` nothing was written, or it moved to a larger one. -/
def SegWithin (K : Nat) (g g' : Seg) : Prop :=
  (g'.cap = g.cap ∧ g'.all.drop K = g.all.drop K) ∨ g.cap < g'.cap

theorem Seg.all_length (g : Seg) : g.all.length = g.cap := by simp [Seg.all, Seg.cap]

theorem SegWithin.refl (K : Nat) (g : Seg) : SegWithin K g g := Or.inl ⟨rfl, rfl⟩

theorem SegWithin.trans {K : Nat} {a b c : Seg} (h : SegWithin K a b) (h' : SegWithin K b c) : SegWithin K a c := by
  rcases h with ⟨h1, h2⟩ | h1 <;> rcases h' with ⟨h3, h4⟩ | h3
  · exact Or.inl ⟨h3.trans h1, h4.trans h2⟩
  · exact Or.inr (by omega)
  · exact Or.inr (by omega)
  · exact Or.inr (by omega)

/-- Writing inside the data. -/
theorem SegWithin.copy {K : Nat} (g : Seg) (off : Nat) (src : Bytes) (h : off ≤ g.data.length)
    (hK : g.data.length ≤ K) : SegWithin K g { g with data := goCopy g.data off src } := by
  refine Or.inl ⟨by simp [Seg.cap, goCopy_length _ _ _ h], ?_⟩
  simp only [Seg.all]
  rw [List.drop_append, List.drop_append, goCopy_length _ _ _ h,
    List.drop_eq_nil_of_le (by rw [goCopy_length _ _ _ h]; omega), List.drop_eq_nil_of_le hK]

theorem SegWithin.grow {K : Nat} (g : Seg) (n : Nat) (h : n ≤ g.spare.length) : SegWithin K g (g.grow n) := by
  refine Or.inl ⟨by simp [Seg.cap, Seg.grow]; omega, ?_⟩
  simp only [Seg.all, Seg.grow, List.append_assoc, List.take_append_drop]

theorem SegWithin.shrink {K : Nat} (g : Seg) (n : Nat) : SegWithin K g (g.shrink n) := by
  refine Or.inl ⟨by simp [Seg.cap, Seg.shrink]; omega, ?_⟩
  simp only [Seg.all, Seg.shrink, ← List.append_assoc, List.take_append_drop]

theorem SegWithin.ensure {K : Nat} (g : Seg) (n : Nat) : SegWithin K g (g.ensureCapacity n) := by
  simp only [Seg.ensureCapacity]
  split
  · exact SegWithin.refl K g
  · rename_i h
    right
    simp only [Seg.cap, zeros, List.length_replicate] at *
    omega

theorem segGrow_length (g : Seg) (n : Nat) : (g.grow n).data.length = g.data.length + min n g.spare.length := by
  simp [Seg.grow]

theorem insertAt_within {K : Nat} {g g' : Seg} {off : Nat} {d : Bytes} (h : g.insertAt off d = .ok g')
    (hK : g'.data.length ≤ K) : SegWithin K g g' := by
  simp only [Seg.insertAt] at h
  split at h
  · simp at h
  · rename_i hoff
    split at h
    · obtain rfl := Res.ok.inj h; exact SegWithin.refl K g
    · have hs := Seg.ensureCapacity_spare g d.length
      have hd := Seg.ensureCapacity_data g d.length
      have hw : SegWithin K g (g.ensureCapacity d.length) := SegWithin.ensure g d.length
      generalize g.ensureCapacity d.length = e at h hs hd hw
      have hgl := segGrow_length e d.length
      rw [← hd] at hoff
      have hw2 : SegWithin K e (e.grow d.length) := SegWithin.grow e d.length hs
      generalize e.grow d.length = f at h hgl hw2
      have hfl : off + d.length ≤ f.data.length := by omega
      by_cases hlt : off < e.data.length
      · simp only [hlt, if_true] at h
        obtain rfl := Res.ok.inj h
        have e1 := goCopy_length f.data (off + d.length) (slice f.data off e.data.length) hfl
        rw [goCopy_length _ _ _ (by omega), e1] at hK
        refine (hw.trans hw2).trans ((SegWithin.copy f (off + d.length) (slice f.data off e.data.length) hfl hK).trans ?_)
        exact SegWithin.copy { f with data := goCopy f.data (off + d.length) (slice f.data off e.data.length) } off d (by rw [e1]; omega) (by rw [e1]; exact hK)
      · simp only [hlt, if_false] at h
        obtain rfl := Res.ok.inj h
        rw [goCopy_length _ _ _ (by omega)] at hK
        exact (hw.trans hw2).trans (SegWithin.copy f off d (by omega) hK)

theorem removeAt_within {K : Nat} {g g' : Seg} {off n : Nat} (h : g.removeAt off n = .ok g')
    (hK : g.data.length ≤ K) : SegWithin K g g' := by
  simp only [Seg.removeAt] at h
  split at h
  · simp at h
  · split at h
    · obtain rfl := Res.ok.inj h; exact SegWithin.refl K g
    · obtain rfl := Res.ok.inj h
      exact (SegWithin.copy g off _ (by omega) hK).trans (SegWithin.shrink _ n)

theorem replaceAt_within {K : Nat} {g g' : Seg} {off n : Nat} {d : Bytes} (h : g.replaceAt off n d = .ok g')
    (hK : g.data.length ≤ K) (hK' : g'.data.length ≤ K) : SegWithin K g g' := by
  simp only [Seg.replaceAt] at h
  split at h
  · simp at h
  · rename_i hoff
    split at h
    · obtain rfl := Res.ok.inj h
      exact SegWithin.copy g off d (by omega) hK
    · split at h
      · have hs := Seg.ensureCapacity_spare g (d.length - n)
        have hd := Seg.ensureCapacity_data g (d.length - n)
        have hw : SegWithin K g (g.ensureCapacity (d.length - n)) := SegWithin.ensure g _
        generalize g.ensureCapacity (d.length - n) = e at h hs hd hw
        have hgl := segGrow_length e (d.length - n)
        rw [← hd] at hoff
        have hw2 : SegWithin K e (e.grow (d.length - n)) := SegWithin.grow e _ hs
        generalize e.grow (d.length - n) = f at h hgl hw2
        obtain rfl := Res.ok.inj h
        have e1 := goCopy_length f.data (off + d.length) (slice f.data (off + n) e.data.length) (by omega)
        rw [goCopy_length _ _ _ (by omega), e1] at hK'
        refine (hw.trans hw2).trans ((SegWithin.copy f (off + d.length)
          (slice f.data (off + n) e.data.length) (by omega) hK').trans ?_)
        exact SegWithin.copy { f with data := goCopy f.data (off + d.length) (slice f.data (off + n) e.data.length) } off d (by rw [e1]; omega) (by rw [e1]; exact hK')
      · obtain rfl := Res.ok.inj h
        have hw1 : SegWithin K g { g with data := goCopy g.data (off + d.length) (g.data.drop (off + n)) } :=
          SegWithin.copy g _ _ (by omega) hK
        have hw2 : SegWithin K _ (Seg.shrink { g with data := goCopy g.data (off + d.length) (g.data.drop (off + n)) } (n - d.length)) :=
          SegWithin.shrink _ (n - d.length)
        refine (hw1.trans hw2).trans ?_
        have e1 := goCopy_length g.data (off + d.length) (g.data.drop (off + n)) (by omega)
        exact SegWithin.copy _ off d (by simp only [Seg.shrink, List.length_take]; omega)
          (by simp only [Seg.shrink, List.length_take]; omega)

theorem putHeaderSize_within {K : Nat} {g g' : Seg} {n : Nat} (h : g.putHeaderSize n = .ok g') (hK : 8 ≤ K) :
    SegWithin K g g' ∧ g'.data.length = g.data.length := by
  simp only [Seg.putHeaderSize] at h
  split at h
  · simp at h
  · rename_i hcap
    simp only [encodeHeaderFinal40] at h
    have hl : 8 ≤ g.all.length := by rw [Seg.all_length]; omega
    split at h
    · simp at h
    · rename_i b hb
      obtain rfl := Res.ok.inj h
      split at hb
      · simp at hb
      · rename_i hf
        simp only [MaxFinal40] at hf
        split at hb
        · simp at hb
        · have hb := Option.some.inj hb
          have key : ∀ l : Bytes, 8 ≤ l.length → (storeFinal40 l n).length = l.length ∧
              (storeFinal40 l n).drop 8 = l.drop 8 := by
            intro l hl
            match l, hl with
            | x0 :: x1 :: x2 :: x3 :: x4 :: x5 :: x6 :: x7 :: r, _ =>
              rw [storeFinal40_eq _ _ _ _ _ _ _ _ _ (by omega)]
              simp; omega
          obtain ⟨k1, k2⟩ := key (g.data ++ g.spare) hl
          rw [hb] at k1 k2
          have hbl : b.length = g.data.length + g.spare.length := by rw [k1]; simp
          refine ⟨Or.inl ⟨?_, ?_⟩, ?_⟩
          · simp only [Seg.cap, List.length_take, List.length_drop]; omega
          · simp only [Seg.all, List.take_append_drop]
            rw [show K = 8 + (K - 8) by omega, ← List.drop_drop, ← List.drop_drop, k2]
          · simp only [List.length_take]; omega

theorem updateHeaderSize_within {K : Nat} {s s' : St} (h : s.updateHeaderSize = .ok s') (hK : 8 ≤ K) :
    SegWithin K s.seg s'.seg ∧ s'.seg.data.length = s.seg.data.length := by
  simp only [St.updateHeaderSize] at h
  cases hp : s.seg.putHeaderSize s.seg.data.length with
  | panic => rw [hp] at h; simp at h
  | hang => rw [hp] at h; simp at h
  | ok g =>
    rw [hp] at h
    simp only [Res.ok_bind, Res.pure_eq] at h
    obtain rfl := Res.ok.inj h
    exact putHeaderSize_within hp hK

theorem ensure_seg {s s' : St} (h : s.ensure = .ok s') : s'.seg = s.seg := by
  simp only [St.ensure] at h
  split at h
  · simp only [Res.pure_eq] at h; rw [← Res.ok.inj h]
  · simp only [St.parseFieldIndex] at h
    cases hp : parseLoop HeaderSize (s.seg.data.drop HeaderSize) s.idx with
    | panic => rw [hp] at h; simp at h
    | hang => rw [hp] at h; simp at h
    | ok i => rw [hp] at h; simp only [Res.ok_bind, Res.pure_eq] at h; rw [← Res.ok.inj h]

theorem insertField_within {K : Nat} {s s' : St} {fn : Nat} {d : Bytes} (h : s.insertField fn d = .ok s')
    (hK : s.seg.data.length ≤ K) (hK' : s'.seg.data.length ≤ K) (h8 : 8 ≤ K) : SegWithin K s.seg s'.seg := by
  simp only [St.insertField] at h
  cases he : s.ensure with
  | panic => rw [he] at h; simp at h
  | hang => rw [he] at h; simp at h
  | ok e =>
    have hes := ensure_seg he
    rw [he] at h
    simp only [Res.ok_bind] at h
    rw [← hes] at hK ⊢
    cases hi : e.idx[fn]? with
    | none => rw [hi] at h; simp at h
    | some x =>
      rw [hi] at h
      simp only at h
      split at h
      · split at h
        · split at h
          · simp at h
          · rename_i hoff
            obtain ⟨h1, h2⟩ := updateHeaderSize_within (K := K) h h8
            exact (SegWithin.copy e.seg x.offset d (by omega) hK).trans h1
        · cases hr : e.seg.replaceAt x.offset x.size d with
          | panic => rw [hr] at h; simp at h
          | hang => rw [hr] at h; simp at h
          | ok g =>
            rw [hr] at h
            simp only [Res.ok_bind] at h
            obtain ⟨h1, h2⟩ := updateHeaderSize_within (K := K) h h8
            exact (replaceAt_within hr hK (by simp only at h2; omega)).trans h1
      · cases hr : e.seg.insertAt (e.findInsertPosition fn) d with
        | panic => rw [hr] at h; simp at h
        | hang => rw [hr] at h; simp at h
        | ok g =>
          rw [hr] at h
          simp only [Res.ok_bind] at h
          obtain ⟨h1, h2⟩ := updateHeaderSize_within (K := K) h h8
          exact (insertAt_within hr (by simp only at h2; omega)).trans h1

theorem removeField_within {K : Nat} {s s' : St} {fn : Nat} (h : s.removeField fn = .ok s')
    (hK : s.seg.data.length ≤ K) (h8 : 8 ≤ K) : SegWithin K s.seg s'.seg := by
  simp only [St.removeField] at h
  cases he : s.ensure with
  | panic => rw [he] at h; simp at h
  | hang => rw [he] at h; simp at h
  | ok e =>
    have hes := ensure_seg he
    rw [he] at h
    simp only [Res.ok_bind] at h
    rw [← hes] at hK ⊢
    cases hi : e.idx[fn]? with
    | none => rw [hi] at h; simp only [Res.pure_eq] at h; rw [← Res.ok.inj h]; exact SegWithin.refl K _
    | some x =>
      rw [hi] at h
      simp only at h
      split at h
      · simp only [Res.pure_eq] at h; rw [← Res.ok.inj h]; exact SegWithin.refl K _
      · cases hr : e.seg.removeAt x.offset x.size with
        | panic => rw [hr] at h; simp at h
        | hang => rw [hr] at h; simp at h
        | ok g =>
          rw [hr] at h
          simp only [Res.ok_bind] at h
          obtain ⟨h1, h2⟩ := updateHeaderSize_within (K := K) h h8
          exact (removeAt_within hr hK).trans h1

theorem recordOp_seg (s : St) (o : RecOp) : (s.recordOp o).seg = s.seg := by
  simp only [St.recordOp]; split <;> rfl

theorem markFieldSet_seg (s : St) (n : Nat) : (s.markFieldSet n).seg = s.seg := by
  simp only [St.markFieldSet]
  split
  · split <;> rfl
  · rfl

/-! ### No move while there is room -/

theorem ensure_cap {g : Seg} {n : Nat} (h : g.data.length + n ≤ g.cap) : g.ensureCapacity n = g := by
  simp only [Seg.ensureCapacity]
  rw [if_pos (by simpa [Nat.add_comm] using h)]

theorem grow_cap {g : Seg} {n : Nat} (h : n ≤ g.spare.length) : (g.grow n).cap = g.cap := by
  simp [Seg.cap, Seg.grow]; omega

theorem insertAt_stay {g g' : Seg} {off : Nat} {d : Bytes} (h : g.insertAt off d = .ok g') :
    g'.data.length = g.data.length + d.length ∧ (g'.data.length ≤ g.cap → g'.cap = g.cap) := by
  simp only [Seg.insertAt] at h
  split at h
  · simp at h
  · rename_i hoff
    split at h
    · rename_i h0
      obtain rfl := Res.ok.inj h
      exact ⟨by omega, fun _ => rfl⟩
    · have hs := Seg.ensureCapacity_spare g d.length
      have hd := Seg.ensureCapacity_data g d.length
      have hc : g.data.length + d.length ≤ g.cap → g.ensureCapacity d.length = g := ensure_cap
      generalize g.ensureCapacity d.length = e at h hs hd hc
      have hgl := segGrow_length e d.length
      have hgc := grow_cap hs
      rw [← hd] at hoff
      generalize e.grow d.length = f at h hgl hgc
      have hfl : off + d.length ≤ f.data.length := by omega
      have key : g'.data.length = f.data.length ∧ g'.spare = f.spare := by
        by_cases hlt : off < e.data.length
        · simp only [hlt, if_true] at h
          obtain rfl := Res.ok.inj h
          refine ⟨?_, rfl⟩
          have e1 := goCopy_length f.data (off + d.length) (slice f.data off e.data.length) hfl
          rw [goCopy_length _ _ _ (by omega), e1]
        · simp only [hlt, if_false] at h
          obtain rfl := Res.ok.inj h
          refine ⟨?_, rfl⟩
          rw [goCopy_length _ _ _ (by omega)]
      obtain ⟨k1, k2⟩ := key
      refine ⟨by rw [k1, hgl, hd]; omega, fun hle => ?_⟩
      have : e = g := hc (by rw [← hd]; omega)
      rw [← this, ← hgc]
      simp only [Seg.cap, k1, k2]

theorem removeAt_stay {g g' : Seg} {off n : Nat} (h : g.removeAt off n = .ok g') :
    g'.cap = g.cap := by
  simp only [Seg.removeAt] at h
  split at h
  · simp at h
  · split at h
    · obtain rfl := Res.ok.inj h; rfl
    · obtain rfl := Res.ok.inj h
      simp only [Seg.cap, Seg.shrink, List.length_take, List.length_append, List.length_drop]
      rw [goCopy_length _ _ _ (by omega)]
      omega

theorem replaceAt_stay {g g' : Seg} {off n : Nat} {d : Bytes} (h : g.replaceAt off n d = .ok g') :
    g'.data.length + n = g.data.length + d.length ∧ (g'.data.length ≤ g.cap → g'.cap = g.cap) := by
  simp only [Seg.replaceAt] at h
  split at h
  · simp at h
  · rename_i hoff
    split at h
    · rename_i hn
      obtain rfl := Res.ok.inj h
      simp only [Seg.cap]
      rw [goCopy_length _ _ _ (by omega)]
      exact ⟨by omega, fun _ => rfl⟩
    · split at h
      · have hs := Seg.ensureCapacity_spare g (d.length - n)
        have hd := Seg.ensureCapacity_data g (d.length - n)
        have hc : g.data.length + (d.length - n) ≤ g.cap → g.ensureCapacity (d.length - n) = g := ensure_cap
        generalize g.ensureCapacity (d.length - n) = e at h hs hd hc
        have hgl := segGrow_length e (d.length - n)
        have hgc := grow_cap hs
        rw [← hd] at hoff
        generalize e.grow (d.length - n) = f at h hgl hgc
        obtain rfl := Res.ok.inj h
        have e1 := goCopy_length f.data (off + d.length) (slice f.data (off + n) e.data.length) (by omega)
        have e2 := goCopy_length (goCopy f.data (off + d.length) (slice f.data (off + n) e.data.length)) off d (by omega)
        rw [e1] at e2
        have hdl := congrArg List.length hd
        refine ⟨by show (goCopy _ _ _).length + n = _; rw [e2]; omega, fun hle => ?_⟩
        replace hle : f.data.length ≤ g.cap := by rw [← e2]; exact hle
        have : e = g := hc (by rw [← hd]; omega)
        rw [← this, ← hgc]
        simp only [Seg.cap, e2]
      · obtain rfl := Res.ok.inj h
        have e1 := goCopy_length g.data (off + d.length) (g.data.drop (off + n)) (by omega)
        simp only [Seg.cap, Seg.shrink, List.length_append, List.length_drop]
        rw [goCopy_length _ _ _ (by simp only [List.length_take]; omega)]
        simp only [List.length_take]
        omega

theorem putHeaderSize_stay {g g' : Seg} {n : Nat} (h : g.putHeaderSize n = .ok g') :
    g'.cap = g.cap := by
  simp only [Seg.putHeaderSize] at h
  split at h
  · simp at h
  · rename_i hcap
    simp only [encodeHeaderFinal40] at h
    have hl : 8 ≤ g.all.length := by rw [Seg.all_length]; omega
    split at h
    · simp at h
    · rename_i b hb
      obtain rfl := Res.ok.inj h
      split at hb
      · simp at hb
      · rename_i hf
        simp only [MaxFinal40] at hf
        split at hb
        · simp at hb
        · have hb := Option.some.inj hb
          have key : ∀ l : Bytes, 8 ≤ l.length → (storeFinal40 l n).length = l.length := by
            intro l hl
            match l, hl with
            | x0 :: x1 :: x2 :: x3 :: x4 :: x5 :: x6 :: x7 :: r, _ =>
              rw [storeFinal40_eq _ _ _ _ _ _ _ _ _ (by omega)]
              simp; omega
          have k1 := key (g.data ++ g.spare) hl
          rw [hb] at k1
          have hbl : b.length = g.data.length + g.spare.length := by rw [k1]; simp
          simp only [Seg.cap, List.length_take, List.length_drop]; omega

theorem updateHeaderSize_stay {s s' : St} (h : s.updateHeaderSize = .ok s') :
    s'.seg.cap = s.seg.cap ∧ s'.seg.data.length = s.seg.data.length := by
  refine ⟨?_, (updateHeaderSize_within (K := 8) h (by omega)).2⟩
  simp only [St.updateHeaderSize] at h
  cases hp : s.seg.putHeaderSize s.seg.data.length with
  | panic => rw [hp] at h; simp at h
  | hang => rw [hp] at h; simp at h
  | ok g =>
    rw [hp] at h
    simp only [Res.ok_bind, Res.pure_eq] at h
    obtain rfl := Res.ok.inj h
    exact putHeaderSize_stay hp

theorem insertField_stay {s s' : St} {fn : Nat} {d : Bytes} (h : s.insertField fn d = .ok s')
    (hc : s'.seg.data.length ≤ s.seg.cap) : s'.seg.cap = s.seg.cap := by
  simp only [St.insertField] at h
  cases he : s.ensure with
  | panic => rw [he] at h; simp at h
  | hang => rw [he] at h; simp at h
  | ok e =>
    have hes := ensure_seg he
    rw [he] at h
    simp only [Res.ok_bind] at h
    rw [← hes] at hc ⊢
    cases hi : e.idx[fn]? with
    | none => rw [hi] at h; simp at h
    | some x =>
      rw [hi] at h
      simp only at h
      split at h
      · split at h
        · split at h
          · simp at h
          · rename_i hoff
            obtain ⟨h1, h2⟩ := updateHeaderSize_stay h
            rw [h1]
            simp only [Seg.cap]
            rw [goCopy_length _ _ _ (by omega)]
        · cases hr : e.seg.replaceAt x.offset x.size d with
          | panic => rw [hr] at h; simp at h
          | hang => rw [hr] at h; simp at h
          | ok g =>
            rw [hr] at h
            simp only [Res.ok_bind] at h
            obtain ⟨h1, h2⟩ := updateHeaderSize_stay h
            rw [h1]
            exact (replaceAt_stay hr).2 (by simp only at h2; omega)
      · cases hr : e.seg.insertAt (e.findInsertPosition fn) d with
        | panic => rw [hr] at h; simp at h
        | hang => rw [hr] at h; simp at h
        | ok g =>
          rw [hr] at h
          simp only [Res.ok_bind] at h
          obtain ⟨h1, h2⟩ := updateHeaderSize_stay h
          rw [h1]
          exact (insertAt_stay hr).2 (by simp only at h2; omega)

theorem removeField_stay {s s' : St} {fn : Nat} (h : s.removeField fn = .ok s') :
    s'.seg.cap = s.seg.cap := by
  simp only [St.removeField] at h
  cases he : s.ensure with
  | panic => rw [he] at h; simp at h
  | hang => rw [he] at h; simp at h
  | ok e =>
    have hes := ensure_seg he
    rw [he] at h
    simp only [Res.ok_bind] at h
    rw [← hes]
    cases hi : e.idx[fn]? with
    | none => rw [hi] at h; simp only [Res.pure_eq] at h; rw [← Res.ok.inj h]
    | some x =>
      rw [hi] at h
      simp only at h
      split at h
      · simp only [Res.pure_eq] at h; rw [← Res.ok.inj h]
      · cases hr : e.seg.removeAt x.offset x.size with
        | panic => rw [hr] at h; simp at h
        | hang => rw [hr] at h; simp at h
        | ok g =>
          rw [hr] at h
          simp only [Res.ok_bind] at h
          rw [(updateHeaderSize_stay h).1]
          exact removeAt_stay hr

/-! ### Every call -/

/-- What a call does to the memory: nothing beyond `K` when the struct is never longer, no move when the
result fits. -/
structure Footprint (g g' : Seg) : Prop where
  within : ∀ K, g.data.length ≤ K → g'.data.length ≤ K → 8 ≤ K → SegWithin K g g'
  stay : g'.data.length ≤ g.cap → g'.cap = g.cap

theorem Footprint.refl (g : Seg) : Footprint g g := ⟨fun K _ _ _ => SegWithin.refl K g, fun _ => rfl⟩

theorem insertField_foot {s s' : St} {fn : Nat} {d : Bytes} (h : s.insertField fn d = .ok s') :
    Footprint s.seg s'.seg :=
  ⟨fun _ h1 h2 h3 => insertField_within h h1 h2 h3, insertField_stay h⟩

theorem removeField_foot {s s' : St} {fn : Nat} (h : s.removeField fn = .ok s') :
    Footprint s.seg s'.seg :=
  ⟨fun _ h1 _ h3 => removeField_within h h1 h3, fun _ => removeField_stay h⟩

theorem setOrClear_foot {s s' : St} {n : Nat} {z : Bool} {b : Option Bytes} {rd : Bytes}
    (h : setOrClear s n z b rd = .ok s') : Footprint s.seg s'.seg := by
  simp only [setOrClear] at h
  cases z with
  | true =>
    simp only [if_true] at h
    cases hr : s.removeField n with
    | panic => rw [hr] at h; simp at h
    | hang => rw [hr] at h; simp at h
    | ok e =>
      rw [hr] at h
      simp only [Res.ok_bind, Res.pure_eq] at h
      obtain rfl := Res.ok.inj h
      rw [recordOp_seg]
      exact removeField_foot hr
  | false =>
    simp only [Bool.false_eq_true, if_false] at h
    cases b with
    | none => simp [Res.ofOption] at h
    | some b =>
      simp only [Res.ofOption_some, Res.ok_bind] at h
      cases hr : s.insertField n b with
      | panic => rw [hr] at h; simp at h
      | hang => rw [hr] at h; simp at h
      | ok e =>
        rw [hr] at h
        simp only [Res.ok_bind, Res.pure_eq] at h
        obtain rfl := Res.ok.inj h
        rw [recordOp_seg, markFieldSet_seg]
        exact insertField_foot hr

theorem storeList_foot {s s' : St} {n : Nat} {z : Bool} {b : Option Bytes} {rd : Bytes}
    (h : storeList s n z b rd = .ok s') : Footprint s.seg s'.seg := by
  simp only [storeList] at h
  rw [← recordOp_seg s ⟨n, OpListReplace, -1, rd⟩]
  cases z with
  | true =>
    simp only [if_true] at h
    exact removeField_foot h
  | false =>
    simp only [Bool.false_eq_true, if_false] at h
    cases b with
    | none => simp [Res.ofOption] at h
    | some b =>
      simp only [Res.ofOption_some, Res.ok_bind] at h
      exact insertField_foot h

theorem set_foot {t : STy} {s s' : St} {n : Nat} {v : t.Val} (h : t.set s n v = .ok s') :
    Footprint s.seg s'.seg := by
  cases t
  case lbool => exact storeList_foot h
  case lnum k => exact storeList_foot h
  case lstr => exact storeList_foot h
  case lbytes => exact storeList_foot h
  case any => cases v <;> (simp only [STy.set, setAny] at h; exact setOrClear_foot h)
  case map kt vt =>
    simp only [STy.set, syncMap, Bool.not_true, Bool.false_eq_true, if_false] at h
    split at h
    · cases hr : s.removeField n with
      | panic => rw [hr] at h; simp at h
      | hang => rw [hr] at h; simp at h
      | ok e =>
        rw [hr] at h
        simp only [Res.ok_bind, Res.pure_eq] at h
        obtain rfl := Res.ok.inj h
        exact removeField_foot hr
    · cases hb : mapBlob kt vt n (v.map Prod.fst) (v.map Prod.snd) with
      | none => rw [hb] at h; simp [Res.ofOption] at h
      | some b =>
        rw [hb] at h
        simp only [Res.ofOption_some, Res.ok_bind] at h
        cases hr : s.insertField n b with
        | panic => rw [hr] at h; simp at h
        | hang => rw [hr] at h; simp at h
        | ok e =>
          rw [hr] at h
          simp only [Res.ok_bind, Res.pure_eq] at h
          obtain rfl := Res.ok.inj h
          exact insertField_foot hr
  all_goals exact setOrClear_foot h

theorem setNested_foot {s s' : St} {fn : Nat} {c : Option St} (h : setNestedStruct s fn c = .ok s') :
    Footprint s.seg s'.seg := by
  cases c <;> exact setOrClear_foot h

/-- Every call of the API. -/
theorem op_foot {op : Op} {s s' : St} (h : op.run s = .ok s') : Footprint s.seg s'.seg := by
  cases op with
  | set fn t v => simp only [Op.run] at h; exact set_foot h
  | clear fn => simp only [Op.run, clearField] at h; exact removeField_foot h
  | nestNil fn => simp only [Op.run] at h; exact setNested_foot h
  | peek =>
    simp only [Op.run] at h
    rw [ensure_seg h]; exact Footprint.refl _
  | nest fn m ops =>
    simp only [Op.run] at h
    cases hn : St.new m with
    | panic => rw [hn] at h; simp at h
    | hang => rw [hn] at h; simp at h
    | ok c =>
      rw [hn] at h
      simp only [Res.ok_bind] at h
      cases hr : runOps ops c with
      | panic => rw [hr] at h; simp at h
      | hang => rw [hr] at h; simp at h
      | ok c' => rw [hr] at h; simp only [Res.ok_bind] at h; exact setNested_foot h
  | nestList fn m progs =>
    simp only [Op.run] at h
    cases hn : runItems m progs with
    | panic => rw [hn] at h; simp at h
    | hang => rw [hn] at h; simp at h
    | ok c => rw [hn] at h; simp only [Res.ok_bind] at h; exact storeList_foot h

end Claw
