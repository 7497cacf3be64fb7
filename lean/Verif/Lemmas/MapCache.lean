import Verif.Lemmas.ListCache
import Verif.Lemmas.Maps
import Verif.Spec.MapCache

/-!
# The map cache implements the specification
-/

namespace Claw

set_option linter.unusedSimpArgs false

section
variable {F : Nat → Type}

theorem dput_same (f : (i : Nat) → F i) (n : Nat) (v : F n) : dput f n v n = v := by simp [dput]

theorem dput_ne (f : (i : Nat) → F i) {n i : Nat} (v : F n) (h : i ≠ n) : dput f n v i = f i := by simp [dput, h]

theorem dput_self (f : (i : Nat) → F i) (n : Nat) : dput f n (f n) = f := by
  funext i
  by_cases h : i = n
  · subst h; exact dput_same ..
  · exact dput_ne _ _ h
end

open Classical in
/-- A call on a represented map. -/
theorem mop_entries {V : Type} (t : KTy) (op : MOp t.Val V) {m : GoMap t.Val V} {E : List (t.Val × V)}
    (h : MRep t.compare m E) :
    ∃ m', op.run t.compare m = .ok m' ∧ MRep t.compare m' (op.onEntries t E) ∧
      (m'.dirty = true ∨ (m'.dirty = m.dirty ∧ op.onEntries t E = E)) := by
  cases op with
  | set k v =>
    obtain ⟨A, B, rfl, hA, ⟨k0, v0, B', rfl, he, hB, hf⟩ | ⟨hB, hf, hp⟩⟩ := h.find t.laws k
    · have hE : MOp.onEntries t (.set k v) (A ++ (k0, v0) :: B') = A ++ (k0, v) :: B' := by
        simp only [MOp.onEntries]
        rw [if_pos ⟨(k0, v0), by simp, (t.compare_same _ _).1 he⟩]
        have h1 : ∀ l : List (t.Val × V), (∀ p ∈ l, t.compare p.1 k ≠ 0) →
            l.map (fun e => if t.Same e.1 k then (e.1, v) else e) = l := by
          intro l hl
          conv => rhs; rw [← List.map_id l]
          apply List.map_congr_left
          intro p hp
          rw [if_neg fun hs => hl p hp ((t.compare_same _ _).2 hs)]; rfl
        rw [List.map_append, List.map_cons, h1 A fun p hp => by have := hA p hp; omega,
          h1 B' fun p hp => by have := hB p hp; omega, if_pos ((t.compare_same _ _).1 he)]
      rw [hE]
      refine ⟨⟨m.keys, m.vals.set A.length v, true⟩, ?_, ⟨?_, ?_, ?_⟩, Or.inl rfl⟩
      · simp only [MOp.run, GoMap.set, hf, Res.ok_bind]
        have : A.length < m.vals.length := by rw [h.vals]; simp
        simp [this]
      · simp [h.keys]
      · simp [h.vals]
      · have := h.sorted
        rw [List.pairwise_append, List.pairwise_cons] at this ⊢
        exact ⟨this.1, this.2.1, fun a ha b hb => by
          rcases List.mem_cons.mp hb with rfl | hb
          · exact this.2.2 a ha (k0, v0) (List.mem_cons_self ..)
          · exact this.2.2 a ha b (List.mem_cons_of_mem _ hb)⟩
    · have hE : MOp.onEntries t (.set k v) (A ++ B) = A ++ (k, v) :: B := by
        simp only [MOp.onEntries]
        rw [if_neg]
        · have f1 : A.filter (fun e => decide (t.Before e.1 k)) = A := by
            rw [List.filter_eq_self]; intro p hp; simpa using (t.compare_before _ _).1 (hA p hp)
          have nb : ∀ p ∈ B, ¬ t.Before p.1 k := by
            intro p hp hb
            have := (t.compare_before _ _).2 hb
            have := hB p hp; omega
          have f2 : B.filter (fun e => decide (t.Before e.1 k)) = [] := by
            rw [List.filter_eq_nil_iff]; intro p hp; simpa using nb p hp
          have f3 : A.filter (fun e => decide (¬ t.Before e.1 k)) = [] := by
            rw [List.filter_eq_nil_iff]; intro p hp; simpa using (t.compare_before _ _).1 (hA p hp)
          have f4 : B.filter (fun e => decide (¬ t.Before e.1 k)) = B := by
            rw [List.filter_eq_self]; intro p hp; simpa using nb p hp
          rw [List.filter_append, List.filter_append, f1, f2, f3, f4]; simp
        · rintro ⟨p, hp, hs⟩
          have := (t.compare_same _ _).2 hs
          rcases List.mem_append.mp hp with hp | hp
          · have := hA p hp; omega
          · have := hB p hp; omega
      rw [hE]
      refine ⟨⟨(A.map Prod.fst) ++ k :: B.map Prod.fst, (A.map Prod.snd) ++ v :: B.map Prod.snd, true⟩,
        ?_, ⟨?_, ?_, ?_⟩, Or.inl rfl⟩
      · simp only [MOp.run, GoMap.set, hf, hp, Res.ok_bind, goInsert, h.keys, h.vals]
        simp
      · simp
      · simp
      · have := h.sorted
        rw [List.pairwise_append, List.pairwise_cons] at *
        refine ⟨this.1, ⟨fun b hb => (t.laws.swap _ _).mpr (hB b hb), this.2.1⟩, fun a ha b hb => ?_⟩
        rcases List.mem_cons.mp hb with rfl | hb
        · exact hA a ha
        · exact this.2.2 a ha b hb
  | delete k =>
    have keep : ∀ l : List (t.Val × V), (∀ p ∈ l, t.compare p.1 k ≠ 0) →
        l.filter (fun e => decide (¬ t.Same e.1 k)) = l := by
      intro l hl
      rw [List.filter_eq_self]; intro p hp
      simpa using fun hs => hl p hp ((t.compare_same _ _).2 hs)
    obtain ⟨A, B, rfl, hA, ⟨k0, v0, B', rfl, he, hB, hf⟩ | ⟨hB, hf, hp⟩⟩ := h.find t.laws k
    · have hE : MOp.onEntries t (.delete k) (A ++ (k0, v0) :: B') = A ++ B' := by
        simp only [MOp.onEntries]
        rw [List.filter_append, List.filter_cons_of_neg (by simpa using (t.compare_same _ _).1 he),
          keep A fun p hp => by have := hA p hp; omega, keep B' fun p hp => by have := hB p hp; omega]
      rw [hE]
      refine ⟨⟨(A ++ B').map Prod.fst, (A ++ B').map Prod.snd, true⟩, ?_, ⟨rfl, rfl, ?_⟩, Or.inl rfl⟩
      · simp only [MOp.run, GoMap.delete, hf, Res.ok_bind, goDelete, h.keys, h.vals]
        simp [List.drop_append, List.drop_of_length_le, Nat.add_sub_cancel_left]
      · have := h.sorted
        rw [List.pairwise_append, List.pairwise_cons] at this
        rw [List.pairwise_append]
        exact ⟨this.1, this.2.1.2, fun a ha b hb => this.2.2 a ha b (List.mem_cons_of_mem _ hb)⟩
    · have hE : MOp.onEntries t (.delete k) (A ++ B) = A ++ B := by
        simp only [MOp.onEntries]
        refine keep _ fun p hp => ?_
        rcases List.mem_append.mp hp with hp | hp
        · have := hA p hp; omega
        · have := hB p hp; omega
      rw [hE]
      exact ⟨m, by simp [MOp.run, GoMap.delete, hf], h, Or.inr ⟨rfl, rfl⟩⟩
  | clear =>
    refine ⟨m.clear, rfl, h.clear, ?_⟩
    simp only [GoMap.clear, MOp.onEntries]
    split
    · exact Or.inl rfl
    · rename_i h0
      have hk : m.keys = [] := List.length_eq_zero_iff.mp (by omega)
      have := h.keys; rw [hk] at this
      exact Or.inr ⟨rfl, by simpa using this⟩

open Classical in
/-- The struct of a key is changed. -/
theorem poke_entries {V : Type} (t : KTy) (k : t.Val) (v : V) {m : GoMap t.Val V} {E : List (t.Val × V)}
    (h : MRep t.compare m E) :
    (m.findKey t.compare k = .ok none ∧ (E.map fun e => if t.Same e.1 k then (e.1, v) else e) = E) ∨
    ∃ i, m.findKey t.compare k = .ok (some i) ∧
      MRep t.compare { m with vals := m.vals.set i v } (E.map fun e => if t.Same e.1 k then (e.1, v) else e) := by
  have h1 : ∀ l : List (t.Val × V), (∀ p ∈ l, t.compare p.1 k ≠ 0) →
      l.map (fun e => if t.Same e.1 k then (e.1, v) else e) = l := by
    intro l hl
    conv => rhs; rw [← List.map_id l]
    apply List.map_congr_left
    intro p hp
    rw [if_neg fun hs => hl p hp ((t.compare_same _ _).2 hs)]; rfl
  obtain ⟨A, B, rfl, hA, ⟨k0, v0, B', rfl, he, hB, hf⟩ | ⟨hB, hf, hp⟩⟩ := h.find t.laws k
  · right
    refine ⟨A.length, hf, ?_⟩
    rw [List.map_append, List.map_cons, h1 A fun p hp => by have := hA p hp; omega,
      h1 B' fun p hp => by have := hB p hp; omega, if_pos ((t.compare_same _ _).1 he)]
    refine ⟨by simp [h.keys], by simp [h.vals], ?_⟩
    have := h.sorted
    rw [List.pairwise_append, List.pairwise_cons] at this ⊢
    exact ⟨this.1, this.2.1, fun a ha b hb => by
      rcases List.mem_cons.mp hb with rfl | hb
      · exact this.2.2 a ha (k0, v0) (List.mem_cons_self ..)
      · exact this.2.2 a ha b (List.mem_cons_of_mem _ hb)⟩
  · left
    refine ⟨hf, h1 _ fun p hp => ?_⟩
    rcases List.mem_append.mp hp with hp | hp
    · have := hA p hp; omega
    · have := hB p hp; omega

variable {σ : MapSchema} {isM : Nat → Bool}

/-- The object of a touched field. -/
structure MObjOf (L : MSt σ) (A : MAbs σ) (fn : Nat) (sh : MShown σ fn) (m : σ.Obj fn) : Prop where
  obj : L.maps fn = some m
  rep : MRep (σ fn).1.compare m sh.entries
  live : sh.live = true ↔ fn ∈ L.pending
  clean : sh.live = true → A.fields.getD fn .absent = .absent ∧ (m.dirty = false → sh.entries = [])

/-- The model state implements the specified state. -/
structure MInv (isM : Nat → Bool) (L : MSt σ) (A : MAbs σ) : Prop where
  rep : Rep 0 L.st (encs A.fields 0)
  len : L.st.idx.length = A.fields.length
  max : A.fields.length ≤ 65536
  canon : Canons A.fields
  cfg : L.st.isSetEnabled = false ∧ L.st.recording = false
  typed : MapsTyped σ isM A.fields
  untouched : ∀ fn, A.shown fn = none → L.maps fn = none
  touched : ∀ fn sh, A.shown fn = some sh → fn < A.fields.length ∧ isM fn = true ∧ ∃ m, MObjOf L A fn sh m
  pend : ∀ fn ∈ L.pending, A.shown fn ≠ none
  nodup : L.pending.Nodup

theorem getMap_of_get (kt : KTy) (vt : VTy) {s : St} {i : Nat} {es : List (kt.Val × vt.Val)} {fs : List Bytes}
    (h : Rep 0 s fs) (hi : i < s.idx.length) (hc : STy.Clean (.map kt vt) es)
    (hs : scalarSize (.map kt vt) es < 2 ^ 32) (hb : blob fs i = scalarBlob i (.map kt vt) es) :
    getMap kt vt s i = .ok (some ⟨es.map Prod.fst, es.map Prod.snd, false⟩) := by
  have hp := paddingNeeded_sum (entryBytes kt vt es)
  have hp' : paddingNeeded (entryBytes kt vt es) = (entryBytes kt vt es + 7) / 8 * 8 - entryBytes kt vt es := by omega
  simp only [scalarSize] at hs
  simp only [scalarBlob, STy.ft, STy.f40, STy.tail] at hb
  rw [getMap_hdr h kt vt es hi hc.1.1 (by omega) hb, hp', hc.2]
  simp

/-- Setting what is shown of one map. -/
theorem MInv.put {L : MSt σ} {A : MAbs σ} (h : MInv isM L A) {fn : Nat} {sh sh' : MShown σ fn} {m m' : σ.Obj fn}
    (hs : A.shown fn = some sh) (ho : MObjOf L A fn sh m) (hl : sh'.live = sh.live)
    (hr : MRep (σ fn).1.compare m' sh'.entries) (hd : sh.live = true → m'.dirty = false → sh'.entries = []) :
    MInv isM { L with maps := dput L.maps fn (some m') } (A.setShown fn sh') := by
  refine ⟨h.rep, h.len, h.max, h.canon, h.cfg, h.typed, ?_, ?_, ?_, h.nodup⟩
  · intro i hi
    by_cases hif : i = fn
    · subst hif; simp [MAbs.setShown, dput_same] at hi
    · simp only [MAbs.setShown, dput_ne _ _ hif] at hi
      exact (dput_ne L.maps (some m') hif).trans (h.untouched i hi)
  · intro i s hi
    by_cases hif : i = fn
    · subst hif
      simp only [MAbs.setShown, dput_same, Option.some.injEq] at hi
      subst hi
      obtain ⟨h1, h2, _⟩ := h.touched i sh hs
      exact ⟨h1, h2, m', by simp [dput_same], hr, by rw [hl]; exact ho.live,
        fun e => ⟨(ho.clean (hl ▸ e)).1, hd (hl ▸ e)⟩⟩
    · simp only [MAbs.setShown, dput_ne _ _ hif] at hi
      obtain ⟨h1, h2, m0, h3⟩ := h.touched i s hi
      exact ⟨h1, h2, m0, (dput_ne L.maps (some m') hif).trans h3.obj, h3.rep, h3.live, h3.clean⟩
  · intro i hi
    by_cases hif : i = fn
    · subst hif; simp [MAbs.setShown, dput_same]
    · simp only [MAbs.setShown, dput_ne _ _ hif]; exact h.pend i hi

theorem setShown_shown (A : MAbs σ) (fn : Nat) (s : MShown σ fn) : (A.setShown fn s).shown fn = some s := by
  simp [MAbs.setShown, dput_same]

theorem msetShown_twice (A : MAbs σ) (fn : Nat) (s s' : MShown σ fn) :
    (A.setShown fn s).setShown fn s' = A.setShown fn s' := by
  simp only [MAbs.setShown, MAbs.mk.injEq, true_and]
  funext i
  by_cases hif : i = fn
  · subst hif; simp [dput_same]
  · simp [dput_ne _ _ hif]

/-- The accessor. -/
theorem maccess_inv {L : MSt σ} {A : MAbs σ} (h : MInv isM L A) {fn : Nat} (hfn : fn < A.fields.length)
    (hM : isM fn = true) :
    ∃ m L', L.access fn = .ok (m, L') ∧ MInv isM L' (A.setShown fn (A.touch fn)) ∧
      MObjOf L' (A.setShown fn (A.touch fn)) fn (A.touch fn) m := by
  cases hs : A.shown fn with
  | some sh =>
    obtain ⟨h1, h2, m, h3⟩ := h.touched fn sh hs
    have ht : A.touch fn = sh := by simp [MAbs.touch, hs]
    have hA : A.setShown fn (A.touch fn) = A := by
      rw [ht]; simp only [MAbs.setShown, ← hs, dput_self]
    rw [hA, ht]
    exact ⟨m, L, by simp [MSt.access, h3.obj], h, h3⟩
  | none =>
    have hnone := h.untouched fn hs
    obtain ⟨st, hen, hrep, hlen, hcfg⟩ : ∃ st, L.st.ensure = .ok st ∧ Rep 0 st (encs A.fields 0) ∧
        st.idx.length = A.fields.length ∧ (st.isSetEnabled = false ∧ st.recording = false) :=
      ⟨_, h.rep.ensure, h.rep.parsed, by simpa using h.len, h.cfg⟩
    have hnp : fn ∉ L.pending := fun hp => h.pend fn hp hs
    -- the new object `m`, registered or not
    have new : ∀ (m : σ.Obj fn) (reg : Bool), MRep (σ fn).1.compare m (A.touch fn).entries →
        (A.touch fn).live = reg → (reg = true → A.fields.getD fn .absent = .absent ∧ (A.touch fn).entries = []) →
        MInv isM ⟨st, dput L.maps fn (some m), if reg then L.pending ++ [fn] else L.pending⟩
          (A.setShown fn (A.touch fn)) ∧
        MObjOf ⟨st, dput L.maps fn (some m), if reg then L.pending ++ [fn] else L.pending⟩
          (A.setShown fn (A.touch fn)) fn (A.touch fn) m := by
      intro m reg hr hlive hreg
      have hobj : MObjOf ⟨st, dput L.maps fn (some m), if reg then L.pending ++ [fn] else L.pending⟩
          (A.setShown fn (A.touch fn)) fn (A.touch fn) m := by
        refine ⟨dput_same .., hr, ?_, ?_⟩
        · rw [hlive]; cases reg <;> simp [hnp]
        · intro e; rw [hlive] at e; exact ⟨(hreg e).1, fun _ => (hreg e).2⟩
      refine ⟨⟨hrep, hlen, h.max, h.canon, hcfg, h.typed, ?_, ?_, ?_, ?_⟩, hobj⟩
      · intro i hi
        by_cases hif : i = fn
        · subst hif; rw [setShown_shown] at hi; simp at hi
        · simp only [MAbs.setShown, dput_ne _ _ hif] at hi
          exact (dput_ne L.maps (some m) hif).trans (h.untouched i hi)
      · intro i s hi
        by_cases hif : i = fn
        · subst hif
          rw [setShown_shown, Option.some.injEq] at hi
          subst hi
          exact ⟨hfn, hM, m, hobj⟩
        · simp only [MAbs.setShown, dput_ne _ _ hif] at hi
          obtain ⟨h1, h2, m0, h3⟩ := h.touched i s hi
          refine ⟨h1, h2, m0, (dput_ne L.maps (some m) hif).trans h3.obj, h3.rep, ?_, h3.clean⟩
          rw [h3.live]; cases reg <;> simp [hif]
      · intro i hi
        by_cases hif : i = fn
        · subst hif; rw [setShown_shown]; simp
        · simp only [MAbs.setShown, dput_ne _ _ hif]
          refine h.pend i ?_
          cases reg <;> simpa [hif] using hi
      · cases reg
        · exact h.nodup
        · simp only [if_true]
          rw [List.nodup_append]
          exact ⟨h.nodup, by simp, fun a ha b hb e => hnp (by simp at hb; subst hb; subst e; exact ha)⟩
    have hblob : blob (encs A.fields 0) fn = (A.fields.getD fn .absent).enc fn := by
      rw [blob_encs, Nat.zero_add]
    rcases h.typed fn hM with e | ⟨es, e, hasc⟩
    · have ht : A.touch fn = ⟨true, true, []⟩ := by
        simp only [MAbs.touch, hs, e, Val.isAbsent, listIn, STy.zero]
      obtain ⟨n1, n2⟩ := new GoMap.new true (by rw [ht]; exact MRep.new) (by rw [ht])
        (fun _ => ⟨e, by rw [ht]⟩)
      refine ⟨GoMap.new, _, ?_, n1, n2⟩
      simp only [MSt.access, hnone, hen, Res.ok_bind, getMap_absent hrep fn (Or.inr (by rw [hblob, e, Val.enc])),
        Res.pure_eq, if_true]
    · have ht : A.touch fn = ⟨false, false, es⟩ := by
        simp only [MAbs.touch, hs, e, Val.isAbsent, listIn_scalar]
      have hcan := h.canon.get fn
      have hsz : (A.fields.getD fn .absent).size < 2 ^ 32 := by
        have h1 := sizes_ge A.fields fn
        have h2 := h.rep.small
        rw [total_encs] at h2; omega
      rw [e] at hcan hsz hblob
      simp only [Val.Canon] at hcan
      have hg := getMap_of_get (σ fn).1 (σ fn).2 hrep (hlen ▸ hfn) (es := es) hcan.2 hsz (by rw [hblob, Val.enc])
      obtain ⟨n1, n2⟩ := new ⟨es.map Prod.fst, es.map Prod.snd, false⟩ false
        (by rw [ht]; exact ⟨rfl, rfl, hasc.imp fun hab => ((σ fn).1.compare_before _ _).2 hab⟩) (by rw [ht]) (by simp)
      refine ⟨_, _, ?_, n1, n2⟩
      simp only [MSt.access, hnone, hen, Res.ok_bind, hg, Res.pure_eq, Bool.false_eq_true, if_false]

/-- Editing. -/
theorem medit_inv {L : MSt σ} {A : MAbs σ} (h : MInv isM L A) {fn : Nat} (hfn : fn < A.fields.length)
    (hM : isM fn = true) (op : MOp (σ fn).1.Val (σ fn).2.Val) :
    ∃ L', L.edit fn op = .ok L' ∧ MInv isM L' (A.step (.edit fn op)) := by
  obtain ⟨m, L1, e1, h1, h2⟩ := maccess_inv h hfn hM
  obtain ⟨m', e2, h3, h4⟩ := mop_entries (σ fn).1 op h2.rep
  have := h1.put (setShown_shown ..) h2 (sh' := { A.touch fn with entries := op.onEntries _ (A.touch fn).entries })
    (m' := m') rfl h3 (fun hl hd => by
      rcases h4 with h4 | ⟨h4, h5⟩
      · rw [hd] at h4; cases h4
      · rw [h5]; exact (h2.clean hl).2 (h4 ▸ hd))
  rw [msetShown_twice] at this
  exact ⟨_, by simp only [MSt.edit, e1, Res.ok_bind, e2]; rfl, this⟩

/-- Changing a struct of a map. -/
theorem mpoke_inv {L : MSt σ} {A : MAbs σ} (h : MInv isM L A) {fn : Nat} (hfn : fn < A.fields.length)
    (hM : isM fn = true) (k : (σ fn).1.Val) (v : (σ fn).2.Val) :
    ∃ L', L.poke fn k v = .ok L' ∧ MInv isM L' (A.step (.poke fn k v)) := by
  obtain ⟨m, L1, e1, h1, h2⟩ := maccess_inv h hfn hM
  rcases poke_entries (σ fn).1 k v h2.rep with ⟨e2, h3⟩ | ⟨i, e2, h3⟩
  · refine ⟨L1, by simp only [MSt.poke, e1, Res.ok_bind, e2]; rfl, ?_⟩
    simp only [MAbs.step, h3]; exact h1
  · have := h1.put (setShown_shown ..) h2 (sh' := { A.touch fn with entries := (A.touch fn).entries.map _ })
      (m' := { m with vals := m.vals.set i v }) rfl h3 (fun hl hd => by
        rw [(h2.clean hl).2 hd]; rfl)
    rw [msetShown_twice] at this
    exact ⟨_, by simp only [MSt.poke, e1, Res.ok_bind, e2]; rfl, this⟩

theorem mflushed_length (A : MAbs σ) (p : Nat → Bool) : (A.flushed p).length = A.fields.length := by
  simp [MAbs.flushed]

theorem mflushed_getD (A : MAbs σ) (p : Nat → Bool) (i : Nat) (hi : i < A.fields.length) :
    (A.flushed p).getD i .absent = match A.shown i with
      | some s => if s.live && p i then specScalar (σ.ty i) s.entries else A.fields.getD i .absent
      | none => A.fields.getD i .absent := by
  simp only [MAbs.flushed, List.getD_eq_getElem?_getD, List.getElem?_mapIdx, List.getElem?_eq_getElem hi,
    Option.map_some, Option.getD_some]
  cases A.shown i <;> rfl

theorem mflushed_set (A : MAbs σ) (p : Nat → Bool) (fn : Nat) {s : MShown σ fn} (hfn : fn < A.fields.length)
    (h : A.shown fn = some s) (hl : s.live = true) :
    (A.flushed p).set fn (specScalar (σ.ty fn) s.entries) = A.flushed (fun i => p i || i == fn) := by
  apply List.ext_getElem?
  intro i
  simp only [MAbs.flushed, List.getElem?_set, List.length_mapIdx, List.getElem?_mapIdx]
  by_cases hi : fn = i
  · subst hi
    simp [hfn, h, hl]
  · have : (i == fn) = false := by simpa using fun e => hi e.symm
    simp [hi, this]

theorem mflushed_none (A : MAbs σ) : A.flushed (fun _ => false) = A.fields := by
  apply List.ext_getElem?
  intro i
  simp only [MAbs.flushed, List.getElem?_mapIdx, Bool.and_false, Bool.false_eq_true, if_false]
  cases A.fields[i]? <;> simp
  cases A.shown i <;> rfl

theorem mflushed_canon {L : MSt σ} {A : MAbs σ} (h : MInv isM L A)
    (hc : ∀ fn s, A.shown fn = some s → s.live = true → (σ.ty fn).Clean s.entries) (p : Nat → Bool) :
    Canons (A.flushed p) := by
  rw [canons_iff]
  intro i
  by_cases hi : i < A.fields.length
  · rw [mflushed_getD A p i hi]
    cases hsi : A.shown i with
    | none => exact h.canon.get i
    | some s =>
      simp only
      split
      · rename_i hl
        simp only [Bool.and_eq_true] at hl
        exact canon_specScalar _ _ (hc i s hsi hl.1)
      · exact h.canon.get i
  · rw [List.getD_eq_getElem?_getD, List.getElem?_eq_none (by rw [mflushed_length]; omega)]; trivial

/-- The loop of `Marshal`. -/
theorem msyncAll_inv {A : MAbs σ} (hm : A.fields.length ≤ 65536) (hs : ∀ p, 8 + sizes (A.flushed p) < 2 ^ 32)
    (hcan : ∀ p, Canons (A.flushed p)) :
    ∀ (rest : List Nat) (L : MSt σ) (p : Nat → Bool), Rep 0 L.st (encs (A.flushed p) 0) →
      L.st.idx.length = A.fields.length → (L.st.isSetEnabled = false ∧ L.st.recording = false) →
      (∀ fn ∈ rest, fn < A.fields.length ∧ ∃ s m, A.shown fn = some s ∧ s.live = true ∧ L.maps fn = some m ∧
        MRep (σ fn).1.compare m s.entries ∧ (σ.ty fn).Clean s.entries ∧ A.fields.getD fn .absent = .absent ∧
        (m.dirty = false → s.entries = [])) →
      rest.Nodup → (∀ fn ∈ rest, p fn = false) →
      ∃ L', L.syncAll rest = .ok L' ∧
        Rep 0 L'.st (encs (A.flushed fun i => p i || rest.contains i) 0) ∧
        L'.st.idx.length = A.fields.length ∧ (L'.st.isSetEnabled = false ∧ L'.st.recording = false) ∧
        ∀ fn, (L.maps fn = none → L'.maps fn = none) ∧
          ∀ m, L.maps fn = some m → ∃ d, L'.maps fn = some { m with dirty := d } := by
  intro rest
  induction rest with
  | nil =>
    intro L p hr hl hc _ _ _
    exact ⟨L, rfl, by simpa using hr, hl, hc, fun fn => ⟨id, fun m hm => ⟨m.dirty, hm⟩⟩⟩
  | cons fn rest ih =>
    intro L p hr hl hc hobj hnd hp
    obtain ⟨hfn, s, m, hsh, hlive, hmap, hrep, hclean, habs, hdirty⟩ := hobj fn (by simp)
    have hset := mflushed_set A p fn hfn hsh hlive
    have hstep : ∃ st', syncMap (σ fn).1 (σ fn).2 L.st fn m = .ok (st', { m with dirty := false }) ∧
        Rep 0 st' (encs (A.flushed fun i => p i || i == fn) 0) ∧ st'.idx.length = A.fields.length ∧
        (st'.isSetEnabled = false ∧ st'.recording = false) := by
      cases hd : m.dirty with
      | true =>
        obtain ⟨st', e1, e2, e3, _⟩ := op_rep (.set fn (σ.ty fn) s.entries) hr
          (by rw [mflushed_length, hl]; exact Nat.le_refl _) (by rw [mflushed_length]; exact hm) (hcan p)
          ⟨by rw [hl]; exact hfn, hclean⟩ (by simp only [Op.spec]; rw [hset]; exact hs _)
        simp only [Op.spec, hset] at e2
        have hm' : (⟨s.entries.map Prod.fst, s.entries.map Prod.snd, true⟩ : σ.Obj fn) = m := by
          rw [← hrep.keys, ← hrep.vals, ← hd]
        simp only [Op.run, STy.set, hm'] at e1
        have : ∃ st', syncMap (σ fn).1 (σ fn).2 L.st fn m = .ok (st', { m with dirty := false }) ∧ Op.run (.set fn (σ.ty fn) s.entries) L.st = .ok st' := by
          simp only [Op.run, STy.set, hm']
          simp only [syncMap, hd, Bool.not_true, Bool.false_eq_true, if_false] at e1 ⊢
          split at e1
          · rename_i h0
            simp only [h0, if_true]
            cases hq : L.st.removeField fn with
            | ok x => exact ⟨x, rfl, rfl⟩
            | panic => rw [hq] at e1; simp at e1
            | hang => rw [hq] at e1; simp at e1
          · rename_i h0
            simp only [h0, if_false]
            cases hq : Res.ofOption (mapBlob (σ fn).1 (σ fn).2 fn m.keys m.vals) with
            | ok b =>
              rw [hq] at e1
              simp only [Res.ok_bind] at e1 ⊢
              cases hq' : L.st.insertField fn b with
              | ok x => exact ⟨x, rfl, rfl⟩
              | panic => rw [hq'] at e1; simp at e1
              | hang => rw [hq'] at e1; simp at e1
            | panic => rw [hq] at e1; simp at e1
            | hang => rw [hq] at e1; simp at e1
        obtain ⟨st2, f1, f2⟩ := this
        simp only [Op.run, STy.set, hm'] at f2
        rw [e1] at f2
        have f2 := Res.ok.inj f2
        subst f2
        exact ⟨st', f1, e2, by rw [e3.len, hl], e3.enabled.trans hc.1, e3.recording.trans hc.2⟩
      | false =>
        refine ⟨L.st, ?_, ?_, hl, hc⟩
        · simp only [syncMap, hd, Bool.not_false, if_true, Res.pure_eq]
          rw [← hd]
        · rw [← hset]
          have h0 := hdirty hd
          have : (A.flushed p).set fn (specScalar (σ.ty fn) s.entries) = A.flushed p := by
            apply List.ext_getElem?
            intro i
            rw [List.getElem?_set]
            by_cases hi : fn = i
            · subst hi
              rw [if_pos rfl, mflushed_length, if_pos hfn]
              have := mflushed_getD A p fn hfn
              rw [hsh] at this
              simp only [hp fn (by simp), Bool.and_false, Bool.false_eq_true, if_false, habs] at this
              rw [List.getD_eq_getElem?_getD, List.getElem?_eq_getElem (by rw [mflushed_length]; exact hfn)] at this
              rw [List.getElem?_eq_getElem (by rw [mflushed_length]; exact hfn)]
              simp only [Option.getD_some] at this
              rw [this, h0]; rfl
            · rw [if_neg hi]
          rw [this]; exact hr
    obtain ⟨st', f1, f2, f3, f4⟩ := hstep
    rw [List.nodup_cons] at hnd
    obtain ⟨L', g1, g2, g3, g4, g5⟩ := ih ⟨st', dput L.maps fn (some { m with dirty := false }), L.pending⟩
      (fun i => p i || i == fn) f2 f3 f4 (by
        intro q hq
        obtain ⟨q1, s', m', q2, q3, q4, q5⟩ := hobj q (by simp [hq])
        exact ⟨q1, s', m', q2, q3, (dput_ne L.maps _ (fun e : q = fn => hnd.1 (e ▸ hq))).trans q4, q5⟩) hnd.2 (by
        intro q hq
        have h2 : q ≠ fn := fun e => hnd.1 (e ▸ hq)
        simp [hp q (by simp [hq]), h2])
    refine ⟨L', by simp [MSt.syncAll, MSt.sync, hmap, f1, g1], ?_, g3, g4, ?_⟩
    · have : (fun i => (p i || i == fn) || rest.contains i) = (fun i => p i || (fn :: rest).contains i) := by
        funext i; simp only [List.contains_cons, Bool.or_assoc]
      rw [← this]; exact g2
    · intro q
      by_cases hq : q = fn
      · subst hq
        refine ⟨fun e => (by rw [hmap] at e; simp at e), fun m0 h0 => ?_⟩
        rw [hmap] at h0
        have h0 := Option.some.inj h0
        subst h0
        obtain ⟨d, hd⟩ := (g5 q).2 { m with dirty := false } (dput_same ..)
        exact ⟨d, hd⟩
      · have hne := dput_ne L.maps (some { m with dirty := false }) hq
        exact ⟨fun e => (g5 q).1 (hne.trans e), fun m0 h0 => (g5 q).2 m0 (hne.trans h0)⟩

/-- Marshalling. -/
theorem mmarshal_inv {L : MSt σ} {A : MAbs σ} (h : MInv isM L A) (hf : MCall.Fits isM A .marshal) :
    ∃ msg L', L.marshal = .ok (msg, L') ∧ MInv isM L' (A.step .marshal) ∧
      msg = hdr 0 FTStruct (total (encs A.encoded 0)) ++ (encs A.encoded 0).flatten := by
  obtain ⟨hs, hc⟩ := hf
  obtain ⟨L1, e1, e2, e3, e4, e5⟩ := msyncAll_inv h.max hs (mflushed_canon h hc) L.pending L (fun _ => false)
    (by rw [mflushed_none]; exact h.rep) h.len h.cfg (by
      intro fn hfn
      cases hsh : A.shown fn with
      | none => exact absurd hsh (h.pend fn hfn)
      | some s =>
        obtain ⟨k1, _, m, k⟩ := h.touched fn s hsh
        have hl := k.live.2 hfn
        exact ⟨k1, s, m, rfl, hl, k.obj, k.rep, hc fn s hsh hl, k.clean hl⟩) h.nodup (by simp)
  have hflush : (A.flushed fun i => false || L.pending.contains i) = A.encoded := by
    apply List.ext_getElem?
    intro i
    simp only [MAbs.encoded, MAbs.flushed, List.getElem?_mapIdx, Bool.false_or, Bool.and_true]
    cases A.fields[i]? with
    | none => rfl
    | some x =>
      simp only [Option.map_some]
      cases hsi : A.shown i with
      | none => rfl
      | some s =>
        cases hl : s.live with
        | false => simp [hl]
        | true =>
          obtain ⟨_, _, m, k⟩ := h.touched i s hsi
          have : L.pending.contains i = true := by simpa using k.live.1 hl
          simp only [this, hl, Bool.and_self, if_true]
  rw [hflush] at e2
  have hmr := marshal_rep e2 e4.1
  refine ⟨_, { L1 with pending := [] }, by simp only [MSt.marshal, e1, Res.ok_bind, hmr, Res.pure_eq], ?_, rfl⟩
  have hlenE : A.encoded.length = A.fields.length := mflushed_length A _
  refine ⟨e2, by rw [e3]; exact hlenE.symm, by show A.encoded.length ≤ _; rw [hlenE]; exact h.max,
    mflushed_canon h hc _, e4, ?_, ?_, ?_, by simp, by simp⟩
  · intro fn hM
    show A.encoded.getD fn .absent = _ ∨ ∃ es, A.encoded.getD fn .absent = _ ∧ _
    by_cases hi : fn < A.fields.length
    · rw [MAbs.encoded, mflushed_getD A _ fn hi]
      cases hsi : A.shown fn with
      | none => exact h.typed fn hM
      | some s =>
        obtain ⟨_, _, m, k⟩ := h.touched fn s hsi
        simp only [Bool.and_true]
        split
        · simp only [specScalar]
          cases (σ.ty fn).isZero s.entries
          · exact Or.inr ⟨_, rfl, k.rep.sorted.imp fun hab => ((σ fn).1.compare_before _ _).1 hab⟩
          · exact Or.inl rfl
        · exact h.typed fn hM
    · rw [List.getD_eq_getElem?_getD, List.getElem?_eq_none (by rw [hlenE]; omega)]; exact Or.inl rfl
  · intro fn hfn
    simp only [MAbs.step, Option.map_eq_none_iff] at hfn
    exact (e5 fn).1 (h.untouched fn hfn)
  · intro fn sh hsh
    simp only [MAbs.step, Option.map_eq_some_iff] at hsh
    obtain ⟨s0, h0, rfl⟩ := hsh
    obtain ⟨k1, k2, m, k⟩ := h.touched fn s0 h0
    obtain ⟨d, hd⟩ := (e5 fn).2 m k.obj
    exact ⟨by show fn < A.encoded.length; rw [hlenE]; exact k1, k2, _, hd, ⟨k.rep.keys, k.rep.vals, k.rep.sorted⟩, by simp, by simp⟩

/-- Other fields. -/
theorem mcall_inv {L : MSt σ} {A : MAbs σ} (h : MInv isM L A) (op : Op) (hf : MCall.Fits isM A (.call op)) :
    ∃ L', MCall.run (.call op) L = .ok L' ∧ MInv isM L' (A.step (.call op)) := by
  obtain ⟨hfit, hfld, hs⟩ := hf
  obtain ⟨s', e1, e2, e3, e4⟩ := op_rep op h.rep (by rw [h.len]; exact Nat.le_refl _) h.max h.canon
    (by rw [h.len]; exact hfit) hs
  have hget : ∀ i, isM i = true → (op.spec A.fields).getD i .absent = A.fields.getD i .absent := by
    intro i ht
    apply spec_other
    intro hc
    have := hfld i hc
    rw [ht] at this; simp at this
  refine ⟨{ L with st := s' }, by simp [MCall.run, e1], e2, by rw [e3.len, h.len]; simp [MAbs.step, spec_length],
    by simpa [MAbs.step, spec_length] using h.max, e4,
    ⟨e3.enabled.trans h.cfg.1, e3.recording.trans h.cfg.2⟩, ?_, h.untouched, ?_, h.pend, h.nodup⟩
  · intro i ht
    simp only [MAbs.step, hget i ht]; exact h.typed i ht
  · intro i sh hi
    obtain ⟨k1, k2, m, k⟩ := h.touched i _ hi
    refine ⟨by simpa [MAbs.step, spec_length] using k1, k2, m, k.obj, k.rep, k.live, ?_⟩
    intro hl; simp only [MAbs.step, hget i k2]; exact k.clean hl

/-- Every call. -/
theorem mstep_inv {L : MSt σ} {A : MAbs σ} (h : MInv isM L A) (c : MCall σ) (hf : c.Fits isM A) :
    ∃ L', c.run L = .ok L' ∧ MInv isM L' (A.step c) := by
  cases c with
  | call op => exact mcall_inv h op hf
  | read fn =>
    obtain ⟨m, L1, e1, h1, _⟩ := maccess_inv h hf.1 hf.2
    exact ⟨L1, by simp [MCall.run, e1], h1⟩
  | edit fn op => exact medit_inv h hf.1 hf.2 op
  | poke fn k v => exact mpoke_inv h hf.1 hf.2.1 k v
  | marshal =>
    obtain ⟨msg, L1, e1, h1, _⟩ := mmarshal_inv h hf
    exact ⟨L1, by simp [MCall.run, e1], h1⟩

/-- Every program. -/
theorem mcalls_inv (cs : List (MCall σ)) : ∀ {L : MSt σ} {A : MAbs σ}, MInv isM L A → MFits isM A cs →
    ∃ L', runMCalls cs L = .ok L' ∧ MInv isM L' (A.steps cs) := by
  induction cs with
  | nil => intro L A h _; exact ⟨L, rfl, h⟩
  | cons c cs ih =>
    intro L A h hf
    obtain ⟨L1, e1, h1⟩ := mstep_inv h c hf.1
    obtain ⟨L', e2, h2⟩ := ih h1 hf.2
    exact ⟨L', by simp [runMCalls, e1, e2], h2⟩

end Claw
