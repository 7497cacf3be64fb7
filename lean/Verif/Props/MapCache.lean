import Verif.Lemmas.MapCache
import Verif.Lemmas.Look

/-!
# C148: do map edits reach the encoded message?

`runMCalls cs` is a client program over a struct with map objects; `MAbs.steps` says what it does in terms of a record
and of maps that are *live* (created since the last `Marshal` for a field that was empty) or not. The claim of C148 is
false; `C148_exact` says exactly what happens, `C148_lost`, `C148_decoded_lost` and `C148_read_disconnects` that edits
of maps that are not live never reach the message, `C148_reach_partial` that all others do.
-/

namespace Claw

set_option linter.unusedSimpArgs false

variable {σ : MapSchema} {isM : Nat → Bool}

theorem mbegins_inv {m : Nat} {r : List Val} {s : St} (hb : Begins m r s) (hm : m ≤ 65536) (hty : MapsTyped σ isM r) :
    MInv isM (MSt.ofSt σ s) (MAbs.start σ r) ∧ r.length = m := by
  obtain ⟨h1, h2⟩ := begins_inv (lists := fun _ => none) hb hm (fun fn t h => by simp at h)
  exact ⟨⟨h1.rep, h1.len, h1.max, h1.canon, h1.cfg, hty, fun _ _ => rfl, fun _ _ h => by simp [MAbs.start] at h,
    by simp [MSt.ofSt], by simp [MSt.ofSt]⟩, h2⟩

theorem mstep_length (c : MCall σ) (A : MAbs σ) : (A.step c).fields.length = A.fields.length := by
  cases c with
  | call op => simp [MAbs.step, spec_length]
  | marshal => exact mflushed_length A _
  | _ => rfl

theorem msteps_length (cs : List (MCall σ)) : ∀ A : MAbs σ, (A.steps cs).fields.length = A.fields.length := by
  induction cs with
  | nil => intro A; rfl
  | cons c cs ih => intro A; rw [MAbs.steps, ih, mstep_length]

theorem msteps_append (a b : List (MCall σ)) : ∀ A : MAbs σ, A.steps (a ++ b) = (A.steps a).steps b := by
  induction a with
  | nil => intro A; rfl
  | cons x a ih => intro A; exact ih _

theorem mfits_append (a b : List (MCall σ)) : ∀ A : MAbs σ,
    MFits isM A (a ++ b) ↔ MFits isM A a ∧ MFits isM (A.steps a) b := by
  induction a with
  | nil => intro A; simp [MFits, MAbs.steps]
  | cons x a ih => intro A; simp only [List.cons_append, MFits, ih, MAbs.steps, and_assoc]

theorem lookE_spec {V : Type} (t : KTy) {E : List (t.Val × V)} (hs : E.Pairwise fun a b => t.compare a.1 b.1 < 0)
    (k : t.Val) (v : V) : lookE t.compare E k = some v ↔ ∃ e ∈ E, t.Same e.1 k ∧ e.2 = v := by
  induction E with
  | nil => simp [lookE]
  | cons p E ih =>
    rw [List.pairwise_cons] at hs
    by_cases hp : t.compare p.1 k = 0
    · rw [lookE_cons_eq hp]
      constructor
      · intro h; exact ⟨p, by simp, (t.compare_same _ _).1 hp, by simpa using h⟩
      · rintro ⟨e, he, h1, rfl⟩
        rcases List.mem_cons.1 he with rfl | he
        · rfl
        · have h2 := hs.1 e he
          have h3 := t.laws.eq_eq _ _ _ hp (t.laws.symm _ _ ((t.compare_same _ _).2 h1))
          omega
    · rw [lookE_cons_ne hp, ih hs.2]
      constructor
      · rintro ⟨e, he, h⟩; exact ⟨e, List.mem_cons_of_mem _ he, h⟩
      · rintro ⟨e, he, h1, h2⟩
        rcases List.mem_cons.1 he with rfl | he
        · exact absurd ((t.compare_same _ _).2 h1) hp
        · exact ⟨e, he, h1, h2⟩

theorem mapIs_look {V : Type} (t : KTy) {m : GoMap t.Val V} {E : List (t.Val × V)} (h : MRep t.compare m E) :
    MapIs t E (lookE t.compare E) :=
  ⟨h.sorted.imp fun hab => (t.compare_before _ _).1 hab, lookE_spec t h.sorted⟩

/-- **C148, exactly.** Every program of reads and edits of maps, edits of the structs in them, marshals and operations
on other fields runs without panic; the accessors answer by the specified entries; and the next `Marshal` encodes the
specified record, which has the entries of the live maps only. -/
theorem C148_exact {m : Nat} {r : List Val} {s : St} (hb : Begins m r s) (hm : m ≤ 65536) (hty : MapsTyped σ isM r)
    (cs : List (MCall σ)) (hf : MFits isM (MAbs.start σ r) (cs ++ [.marshal])) :
    ∃ L msg L', runMCalls cs (MSt.ofSt σ s) = .ok L ∧ L.marshal = .ok (msg, L') ∧
      (∀ fn, isM fn = true → fn < m → ∃ f, MapIs (σ fn).1 (((MAbs.start σ r).steps cs).touch fn).entries f ∧
        ∀ k, L.get fn k = .ok (f k)) ∧
      ∀ tys : List Ty, tys.length = m → FieldsHaveTy ((MAbs.start σ r).steps cs).encoded tys →
        Decodes tys msg (viewFields tys ((MAbs.start σ r).steps cs).encoded) := by
  rw [mfits_append] at hf
  obtain ⟨hinv, hlen⟩ := mbegins_inv hb hm hty
  obtain ⟨L, e1, h1⟩ := mcalls_inv cs hinv hf.1
  obtain ⟨msg, L', e2, h2, e3⟩ := mmarshal_inv h1 hf.2.1
  have hl : ((MAbs.start σ r).steps cs).fields.length = m := by rw [msteps_length]; exact hlen
  refine ⟨L, msg, L', e1, e2, fun fn hM hfn => ?_, fun tys htl htys => ?_⟩
  · obtain ⟨o, L1, k1, _, k2⟩ := maccess_inv h1 (by rw [hl]; exact hfn) hM
    exact ⟨_, mapIs_look _ k2.rep, fun k => by simp only [MSt.get, k1, Res.ok_bind]; exact k2.rep.get (σ fn).1.laws k⟩
  · subst e3
    exact decodes_of (by rw [MAbs.encoded, mflushed_length]; omega) h2.canon (hf.2.1.1 _) htys

/-! ### What reaches the message -/

theorem mrep_unique {K V : Type} {cmp : K → K → Int} {m : GoMap K V} {E E' : List (K × V)} (h : MRep cmp m E)
    (h' : MRep cmp m E') : E = E' := by
  have h1 : E.map Prod.fst = E'.map Prod.fst := h.keys.symm.trans h'.keys
  have h2 : E.map Prod.snd = E'.map Prod.snd := h.vals.symm.trans h'.vals
  have z : ∀ l : List (K × V), (l.map Prod.fst).zip (l.map Prod.snd) = l := by
    intro l; induction l with
    | nil => rfl
    | cons p l ih => simp [ih]
  rw [← z E, ← z E', h1, h2]

theorem onEntries_look {V : Type} (t : KTy) (op : MOp t.Val V) {m : GoMap t.Val V} {E : List (t.Val × V)}
    (h : MRep t.compare m E) : lookE t.compare (op.onEntries t E) = op.spec t (lookE t.compare E) := by
  obtain ⟨m1, e1, h1, _⟩ := mop_entries t op h
  obtain ⟨m2, E2, e2, h2, h3⟩ := mops_rep t [op] m E h
  simp only [runMOps, e1, Res.ok_bind] at e2
  have e2 := Res.ok.inj e2
  subst e2
  rw [mrep_unique h1 h2, h3]; rfl

open Classical in
theorem poke_look {V : Type} (t : KTy) (k : t.Val) (v : V) (E : List (t.Val × V)) :
    lookE t.compare (E.map fun e => if t.Same e.1 k then (e.1, v) else e) =
      fun k' => if t.Same k k' then (lookE t.compare E k').map fun _ => v else lookE t.compare E k' := by
  funext k'
  induction E with
  | nil => simp [lookE]
  | cons p E ih =>
    rw [List.map_cons]
    have hkey : (if t.Same p.1 k then (p.1, v) else p).1 = p.1 := by split <;> rfl
    by_cases hp : t.compare p.1 k' = 0
    · rw [lookE_cons_eq (by rw [hkey]; exact hp), lookE_cons_eq hp]
      by_cases hs : t.Same k k'
      · have : t.Same p.1 k := (t.compare_same _ _).1
          (t.laws.eq_eq _ _ _ hp (t.laws.symm _ _ ((t.compare_same _ _).2 hs)))
        simp [hs, this]
      · have : ¬ t.Same p.1 k := fun h => hs ((t.compare_same _ _).1
          (t.laws.eq_eq _ _ _ (t.laws.symm _ _ ((t.compare_same _ _).2 h)) hp))
        simp [hs, this]
    · rw [lookE_cons_ne (by rw [hkey]; exact hp), lookE_cons_ne hp, ih]

/-- A map field that no call names stays untouched, and its field stays absent. -/
theorem unnamed (fn : Nat) (hM : isM fn = true) (cs : List (MCall σ)) : ∀ A : MAbs σ, MFits isM A cs →
    (∀ c ∈ cs, ¬ c.Names fn) → A.shown fn = none → A.fields.getD fn .absent = .absent →
    (A.steps cs).shown fn = none ∧ (A.steps cs).fields.getD fn .absent = .absent := by
  induction cs with
  | nil => intro A _ _ h1 h2; exact ⟨h1, h2⟩
  | cons c cs ih =>
    intro A hf hn h1 h2
    have hc := hn c (by simp)
    have hset : ∀ i (sh : MShown σ i), i ≠ fn → (A.setShown i sh).shown fn = none := by
      intro i sh hi
      simp only [MAbs.setShown]
      rw [dput_ne _ _ (fun e => hi e.symm)]; exact h1
    refine ih _ hf.2 (fun c' hc' => hn c' (by simp [hc'])) ?_ ?_
    · cases c with
      | call op => exact h1
      | read i => exact hset i _ hc
      | edit i op => exact hset i _ hc
      | poke i k v => exact hset i _ hc
      | marshal => simp [MAbs.step, h1]
    · cases c with
      | call op =>
        refine (spec_other op A.fields fn ?_).trans h2
        intro e
        have := hf.1.2.1 fn e
        rw [hM] at this; simp at this
      | read i => exact h2
      | edit i op => exact h2
      | poke i k v => exact h2
      | marshal =>
        show A.encoded.getD fn .absent = .absent
        by_cases hi : fn < A.fields.length
        · rw [MAbs.encoded, mflushed_getD A _ fn hi, h1]; exact h2
        · rw [List.getD_eq_getElem?_getD, List.getElem?_eq_none (by rw [MAbs.encoded, mflushed_length]; omega)]; rfl

/-- Without `Marshal` a live map stays live, and has the entries that the calls on it give. -/
theorem live_map (fn : Nat) (cs : List (MCall σ)) : ∀ (L : MSt σ) (A : MAbs σ), MInv isM L A → MFits isM A cs →
    MCall.marshal ∉ cs → (A.touch fn).live = true → fn < A.fields.length → isM fn = true →
    ((A.steps cs).touch fn).live = true ∧
      lookE (σ fn).1.compare ((A.steps cs).touch fn).entries = onMaps fn cs (lookE (σ fn).1.compare (A.touch fn).entries) := by
  induction cs with
  | nil => intro L A _ _ _ h _ _; exact ⟨h, rfl⟩
  | cons c cs ih =>
    intro L A hinv hf hn hl hfn hM
    simp only [List.mem_cons, not_or] at hn
    obtain ⟨L1, _, h1⟩ := mstep_inv hinv c hf.1
    obtain ⟨m0, _, _, _, hrep⟩ := maccess_inv hinv hfn hM
    have htouch : ∀ i (sh : MShown σ i), i ≠ fn → (A.setShown i sh).touch fn = A.touch fn := by
      intro i sh hi
      simp only [MAbs.touch, MAbs.setShown]
      rw [dput_ne _ _ (fun e => hi e.symm)]
    have hself : ∀ sh : MShown σ fn, (A.setShown fn sh).touch fn = sh := by
      intro sh; simp only [MAbs.touch, setShown_shown]
    have hstep : ((A.step c).touch fn).live = true ∧ lookE (σ fn).1.compare ((A.step c).touch fn).entries
        = c.onMap fn (lookE (σ fn).1.compare (A.touch fn).entries) := by
      cases c with
      | call op =>
        have : (A.step (.call op)).touch fn = A.touch fn := by
          simp only [MAbs.touch, MAbs.step]
          cases A.shown fn with
          | some s => rfl
          | none =>
            have : (op.spec A.fields).getD fn .absent = A.fields.getD fn .absent := by
              apply spec_other
              intro e
              have := hf.1.2.1 fn e
              rw [hM] at this; simp at this
            simp only [this]
        rw [this]; exact ⟨hl, rfl⟩
      | read i =>
        by_cases hi : i = fn
        · subst hi; simp only [MAbs.step, hself]; exact ⟨hl, rfl⟩
        · simp only [MAbs.step, htouch i _ hi]; exact ⟨hl, rfl⟩
      | edit i op =>
        by_cases hi : i = fn
        · subst hi
          simp only [MAbs.step, hself, MCall.onMap, dif_pos]
          exact ⟨hl, onEntries_look _ op hrep.rep⟩
        · simp only [MAbs.step, htouch i _ hi, MCall.onMap, dif_neg hi]; exact ⟨hl, trivial⟩
      | poke i k v =>
        by_cases hi : i = fn
        · subst hi
          simp only [MAbs.step, hself, MCall.onMap, dif_pos]
          exact ⟨hl, poke_look _ k v _⟩
        · simp only [MAbs.step, htouch i _ hi, MCall.onMap, dif_neg hi]; exact ⟨hl, trivial⟩
      | marshal => simp at hn
    obtain ⟨k1, k2⟩ := ih L1 _ h1 hf.2 hn.2 hstep.1 (by rw [mstep_length]; exact hfn) hM
    exact ⟨k1, by rw [MAbs.steps, k2, hstep.2]; rfl⟩

/-- **C148, partial.** A map field that was empty, was not touched by the calls `cs` (with `Marshal` anywhere among
them) and is then edited by `cs'`, without a `Marshal`: the accessor and the next message have exactly the map that
the edits give, in order, with the structs in it as they are when it is written. Missing: edits after `Marshal`
(`C148_lost`) and maps that were decoded (`C148_decoded_lost`). -/
theorem C148_reach_partial {m : Nat} {r : List Val} {s : St} (hb : Begins m r s) (hm : m ≤ 65536)
    (hty : MapsTyped σ isM r) (cs cs' : List (MCall σ)) (fn : Nat) (hfn : fn < m) (hM : isM fn = true)
    (h0 : r.getD fn .absent = .absent) (hu : ∀ c ∈ cs, ¬ c.Names fn) (hn : MCall.marshal ∉ cs')
    (hf : MFits isM (MAbs.start σ r) (cs ++ cs' ++ [.marshal])) :
    ∃ L msg L' r' es, runMCalls (cs ++ cs') (MSt.ofSt σ s) = .ok L ∧ L.marshal = .ok (msg, L') ∧
      MapIs (σ fn).1 es (onMaps fn cs' fun _ => none) ∧ r'.getD fn .absent = specScalar (σ.ty fn) es ∧
      (∀ k, L.get fn k = .ok (onMaps fn cs' (fun _ => none) k)) ∧
      ∀ tys : List Ty, tys.length = m → FieldsHaveTy r' tys → Decodes tys msg (viewFields tys r') := by
  obtain ⟨L, msg, L', e1, e2, e3, e4⟩ := C148_exact hb hm hty (cs ++ cs') hf
  obtain ⟨hf1, hf2⟩ := (mfits_append _ _ _).1 hf
  obtain ⟨hf3, hf4⟩ := (mfits_append _ _ _).1 hf1
  obtain ⟨hinv, hlen⟩ := mbegins_inv hb hm hty
  obtain ⟨L1, k1, h1⟩ := mcalls_inv cs hinv hf3
  obtain ⟨u1, u2⟩ := unnamed fn hM cs _ hf3 hu rfl h0
  have ht : ((MAbs.start σ r).steps cs).touch fn = ⟨true, true, []⟩ := by
    simp only [MAbs.touch, u1, u2, Val.isAbsent, listIn, STy.zero]
  have hl : ((MAbs.start σ r).steps cs).fields.length = m := by rw [msteps_length]; exact hlen
  obtain ⟨v1, v2⟩ := live_map fn cs' L1 _ h1 hf4 hn (by rw [ht]) (by rw [hl]; exact hfn) hM
  rw [ht, ← msteps_append] at v2
  rw [← msteps_append] at v1
  have hnil : lookE (σ fn).1.compare ([] : σ.Entries fn) = fun _ => none := by funext k; simp [lookE]
  simp only [hnil] at v2
  obtain ⟨L2, k2, h2⟩ := mcalls_inv (cs ++ cs') hinv hf1
  rw [e1] at k2
  have k2 := Res.ok.inj k2
  subst k2
  have hl2 : ((MAbs.start σ r).steps (cs ++ cs')).fields.length = m := by rw [msteps_length]; exact hlen
  obtain ⟨o, L3, w1, _, w3⟩ := maccess_inv h2 (by rw [hl2]; exact hfn) hM
  refine ⟨L, msg, L', _, (((MAbs.start σ r).steps (cs ++ cs')).touch fn).entries, e1, e2, ?_, ?_, ?_, e4⟩
  · rw [← v2]; exact mapIs_look _ w3.rep
  · rw [MAbs.encoded, mflushed_getD _ _ fn (by rw [hl2]; exact hfn)]
    generalize (MAbs.start σ r).steps (cs ++ cs') = A at v1 v2 h2 hl2
    cases hs : A.shown fn with
    | some sh =>
      simp only [MAbs.touch, hs] at v1 ⊢
      simp [v1]
    | none =>
      simp only [MAbs.touch, hs] at v1 ⊢
      rcases h2.typed fn hM with e | ⟨es, e, _⟩
      · rw [e]; rfl
      · rw [e] at v1; simp [Val.isAbsent] at v1
  · intro k
    rw [← v2]
    simp only [MSt.get, w1, Res.ok_bind]; exact w3.rep.get (σ fn).1.laws k

/-! ### What is lost -/

/-- Calls on maps that are not live change nothing that is encoded. -/
theorem detached_encoded (cs : List (MCall σ)) : ∀ A : MAbs σ, (∀ fn s, A.shown fn = some s → s.live = false) →
    AllDetached A cs → (A.steps cs).fields = A.fields ∧
      ∀ fn s, (A.steps cs).shown fn = some s → s.live = false := by
  induction cs with
  | nil => intro A h _; exact ⟨rfl, h⟩
  | cons c cs ih =>
    intro A h hd
    have hset : ∀ i (sh : MShown σ i), sh.live = false →
        ∀ fn s, (A.setShown i sh).shown fn = some s → s.live = false := by
      intro i sh hl fn s hs
      by_cases hi : fn = i
      · subst hi; rw [setShown_shown, Option.some.injEq] at hs; subst hs; exact hl
      · simp only [MAbs.setShown, dput_ne _ _ hi] at hs; exact h fn s hs
    have hstep : (A.step c).fields = A.fields ∧ ∀ fn s, (A.step c).shown fn = some s → s.live = false := by
      have hc := hd.1
      cases c with
      | call op => exact hc.elim
      | read i => exact ⟨rfl, hset i _ hc⟩
      | edit i op => exact ⟨rfl, hset i _ hc⟩
      | poke i k v => exact ⟨rfl, hset i _ hc⟩
      | marshal => exact hc.elim
    obtain ⟨k1, k2⟩ := ih _ hstep.2 hd.2
    exact ⟨k1.trans hstep.1, k2⟩

theorem mflushed_detached (A : MAbs σ) (h : ∀ fn s, A.shown fn = some s → s.live = false) (p : Nat → Bool) :
    A.flushed p = A.fields := by
  apply List.ext_getElem?
  intro i
  simp only [MAbs.flushed, List.getElem?_mapIdx]
  cases hs : A.shown i with
  | none => simp
  | some sh => simp [h i sh hs]

theorem detached_marshal {L : MSt σ} {A : MAbs σ} (h : MInv isM L A)
    (hl : ∀ fn s, A.shown fn = some s → s.live = false) (cs : List (MCall σ)) (hf : MFits isM A cs)
    (hd : AllDetached A cs) :
    ∃ L1 L2, runMCalls cs L = .ok L1 ∧
      L1.marshal = .ok (hdr 0 FTStruct (total (encs A.fields 0)) ++ (encs A.fields 0).flatten, L2) := by
  obtain ⟨L1, e1, h1⟩ := mcalls_inv cs h hf
  obtain ⟨k1, k2⟩ := detached_encoded cs A hl hd
  have hsmall : 8 + sizes A.fields < 2 ^ 32 := by have := h.rep.small; rw [total_encs] at this; exact this
  obtain ⟨msg, L2, e2, _, e3⟩ := mmarshal_inv h1 ⟨fun p => by rw [mflushed_detached _ k2, k1]; exact hsmall,
    fun fn s hs hlv => by rw [k2 fn s hs] at hlv; cases hlv⟩
  rw [MAbs.encoded, mflushed_detached _ k2, k1] at e3
  exact ⟨L1, L2, e1, by rw [e2, e3]⟩

/-- **C148, refuted (1).** After `Marshal`, whatever is done to maps that were touched before or are in the record, and
to the structs in them, the next message is byte for byte the same. For every program before. -/
theorem C148_lost {m : Nat} {r : List Val} {s : St} (hb : Begins m r s) (hm : m ≤ 65536) (hty : MapsTyped σ isM r)
    (cs cs' : List (MCall σ)) (hf : MFits isM (MAbs.start σ r) (cs ++ [.marshal] ++ cs'))
    (hd : AllDetached ((MAbs.start σ r).steps (cs ++ [.marshal])) cs') :
    ∃ L1 msg L2 L3 L4, runMCalls cs (MSt.ofSt σ s) = .ok L1 ∧ L1.marshal = .ok (msg, L2) ∧
      runMCalls cs' L2 = .ok L3 ∧ L3.marshal = .ok (msg, L4) := by
  obtain ⟨hf1, hf2⟩ := (mfits_append _ _ _).1 hf
  obtain ⟨hf3, hf4⟩ := (mfits_append _ _ _).1 hf1
  obtain ⟨hinv, _⟩ := mbegins_inv hb hm hty
  obtain ⟨L1, e1, h1⟩ := mcalls_inv cs hinv hf3
  obtain ⟨msg, L2, e2, h2, e3⟩ := mmarshal_inv h1 hf4.1
  rw [msteps_append] at hf2 hd
  simp only [MAbs.steps] at hf2 hd
  obtain ⟨L3, L4, e4, e5⟩ := detached_marshal h2 (by
    intro fn s hs
    simp only [MAbs.step, Option.map_eq_some_iff] at hs
    obtain ⟨_, _, rfl⟩ := hs; rfl) cs' hf2 hd
  exact ⟨L1, msg, L2, L3, L4, e1, e2, e4, by rw [e5, e3]; rfl⟩

/-- **C148, refuted (2).** Only reading an empty map (`XLen`, `XGet`, …) before `Marshal` is enough: what is stored in
it afterwards is never encoded, although the accessor shows it. -/
theorem C148_read_disconnects {m : Nat} {r : List Val} {s : St} (hb : Begins m r s) (hm : m ≤ 65536)
    (hty : MapsTyped σ isM r) (cs : List (MCall σ)) (fn : Nat) (k : (σ fn).1.Val) (v : (σ fn).2.Val)
    (hf : MFits isM (MAbs.start σ r) (cs ++ [.read fn] ++ [.marshal] ++ [.edit fn (.set k v)])) :
    ∃ L1 msg L2 L3 L4, runMCalls (cs ++ [.read fn]) (MSt.ofSt σ s) = .ok L1 ∧ L1.marshal = .ok (msg, L2) ∧
      L2.edit fn (.set k v) = .ok L3 ∧ L3.get fn k = .ok (some v) ∧ L3.marshal = .ok (msg, L4) := by
  have htouch : (((MAbs.start σ r).steps (cs ++ [.read fn] ++ [.marshal])).touch fn).live = false := by
    rw [msteps_append, msteps_append]
    simp only [MAbs.steps, MAbs.step, MAbs.touch, setShown_shown, Option.map_some]
  obtain ⟨L1, msg, L2, L3, L4, e1, e2, e3, e4⟩ := C148_lost hb hm hty (cs ++ [.read fn])
    [MCall.edit fn (.set k v)] hf (by exact ⟨htouch, trivial⟩)
  obtain ⟨hf1, hf2⟩ := (mfits_append _ _ _).1 hf
  obtain ⟨hf3, hf4⟩ := (mfits_append _ _ _).1 hf1
  obtain ⟨hinv, hlen⟩ := mbegins_inv hb hm hty
  obtain ⟨L1', k1, h1⟩ := mcalls_inv _ hinv hf3
  rw [e1] at k1
  have k1 := Res.ok.inj k1
  subst k1
  obtain ⟨msg', L2', k2, h2, _⟩ := mmarshal_inv h1 hf4.1
  rw [e2] at k2
  have k2 := Res.ok.inj k2
  simp only [Prod.mk.injEq] at k2
  obtain ⟨_, rfl⟩ := k2
  rw [msteps_append] at hf2
  obtain ⟨L3', k3, h3⟩ := mstep_inv h2 _ hf2.1
  simp only [runMCalls, MCall.run] at e3
  have k3' : L2.edit fn (.set k v) = .ok L3' := k3
  rw [k3'] at e3
  simp only [Res.ok_bind] at e3
  have e3 := Res.ok.inj e3
  subst e3
  refine ⟨L1, msg, L2, L3', L4, e1, e2, k3', ?_, e4⟩
  have hfl := hf2.1.1
  obtain ⟨o, L5, w1, _, w3⟩ := maccess_inv h3 (fn := fn) (by rw [mstep_length]; exact hfl) hf2.1.2
  obtain ⟨o0, L6, x1, _, x3⟩ := maccess_inv h2 (fn := fn) hfl hf2.1.2
  simp only [MSt.get, w1, Res.ok_bind]
  rw [w3.rep.get (σ fn).1.laws k]
  simp only [MAbs.step, MAbs.touch, setShown_shown]
  have := onEntries_look (σ fn).1 (.set k v) x3.rep
  simp only [MAbs.step, MAbs.touch, MAbs.steps] at this
  rw [this]
  simp only [MOp.spec]
  rw [if_pos ((σ fn).1.compare_same _ _ |>.1 ((σ fn).1.laws.refl k))]

/-- **C148, refuted (3).** Whatever is done to maps of a decoded message, the message that was decoded is encoded
again. -/
theorem C148_decoded_lost {m : Nat} {pre : List Op} (hfit : Fits m pre) {w w' f s : St} {msg extra : Bytes}
    (hw : run m pre = .ok w) (hmar : w.marshal = .ok (msg, w')) (hf : St.new m = .ok f)
    (hu : f.unmarshal msg extra = some s) (hty : MapsTyped σ isM (specRun m pre)) (cs : List (MCall σ))
    (hfit' : MFits isM (MAbs.start σ (specRun m pre)) cs) (hd : AllDetached (MAbs.start σ (specRun m pre)) cs) :
    ∃ L1 L2, runMCalls cs (MSt.ofSt σ s) = .ok L1 ∧ L1.marshal = .ok (msg, L2) := by
  have hb : Begins m (specRun m pre) s := .decoded hfit hw hmar hf hu
  obtain ⟨hinv, _⟩ := mbegins_inv hb hfit.1 hty
  obtain ⟨L1, L2, e1, e2⟩ := detached_marshal hinv (fun _ _ h => by simp [MAbs.start] at h) cs hfit' hd
  refine ⟨L1, L2, e1, ?_⟩
  rw [e2]
  obtain ⟨s0, h0, hr, hl0, he, hrec, _⟩ := new_rep m
  obtain ⟨s1, h1, h2, h3, h4⟩ := ops_rep pre hr (by simp [hl0]) (by simpa using hfit.1)
    (canons_replicate m) (by rw [hl0]; exact hfit.2)
  have hrun : run m pre = .ok s1 := by simp [run, h0, h1]
  rw [hw] at hrun
  have hrun := Res.ok.inj hrun
  subst hrun
  rw [marshal_rep h2 (by rw [h3.enabled, he])] at hmar
  have hmar := Res.ok.inj hmar
  simp only [Prod.mk.injEq] at hmar
  rw [← hmar.1]; rfl

/-! ### The hypotheses are met -/

/-- Field 0 is a number, fields 1 and 2 are maps from uint32 to uint32. -/
abbrev demoσ : MapSchema := fun _ => (.num .u32, .num .u32)

def demoIsM : Nat → Bool := fun fn => fn == 1 || fn == 2

def demoM0 : MAbs demoσ := MAbs.start demoσ (List.replicate 3 .absent)

/-- Two entries, the first changed in place, the second deleted. -/
def demoMEdits : List (MCall demoσ) :=
  [.edit 1 (.set (9 : UInt32) (5 : UInt32)), .edit 1 (.set (3 : UInt32) (4 : UInt32)),
    .poke 1 (9 : UInt32) (6 : UInt32), .edit 1 (.delete (3 : UInt32))]

def demoShown (es : List (UInt32 × UInt32)) : MShown demoσ 1 := ⟨true, true, es⟩

theorem demo_edit (op : MOp (UInt32) (UInt32)) (es : List (UInt32 × UInt32)) :
    (demoM0.setShown 1 (demoShown es)).step (.edit 1 op)
      = demoM0.setShown 1 (demoShown (op.onEntries (.num .u32) es)) := by
  simp only [MAbs.step, MAbs.touch, setShown_shown, msetShown_twice, demoShown]

open Classical in
theorem demo_poke (k v : UInt32) (es : List (UInt32 × UInt32)) :
    (demoM0.setShown 1 (demoShown es)).step (.poke 1 k v)
      = demoM0.setShown 1 (demoShown (es.map fun e => if KTy.Same (.num .u32) e.1 k then (e.1, v) else e)) := by
  simp only [MAbs.step, MAbs.touch, setShown_shown, msetShown_twice, demoShown]

theorem demo_first (op : MOp (UInt32) (UInt32)) :
    demoM0.step (.edit 1 op) = demoM0.setShown 1 (demoShown (op.onEntries (.num .u32) [])) := rfl

theorem demo_read : demoM0.step (.read 1) = demoM0.setShown 1 (demoShown []) := rfl

theorem demo_e1 : (MOp.set (9 : UInt32) (5 : UInt32)).onEntries (.num .u32) [] = [(9, 5)] := by
  simp [MOp.onEntries]

theorem demo_e2 : (MOp.set (3 : UInt32) (4 : UInt32)).onEntries (.num .u32) [(9, 5)]
    = [(3, 4), (9, 5)] := by
  simp [MOp.onEntries, KTy.Same, KTy.Before]

theorem demo_e4 : (MOp.delete (3 : UInt32) : MOp (UInt32) (UInt32)).onEntries (.num .u32)
    [(3, 4), (9, 6)] = [(9, 6)] := by
  simp [MOp.onEntries, KTy.Same]

theorem demo_msteps : demoM0.steps demoMEdits = demoM0.setShown 1 (demoShown [(9, 6)]) := by
  simp only [demoMEdits, MAbs.steps]
  rw [demo_first, demo_edit, demo_poke, demo_edit]
  rw [show (MOp.set (9 : UInt32) (5 : UInt32)).onEntries (.num .u32) [] = [(9, 5)] from demo_e1]
  rw [show (MOp.set (3 : UInt32) (4 : UInt32)).onEntries (.num .u32) [(9, 5)] = [(3, 4), (9, 5)] from demo_e2]
  rw [← demo_e4]
  simp [KTy.Same]

theorem demo_mfits : MFits demoIsM demoM0 demoMEdits := by
  simp only [demoMEdits, MFits, demo_first, demo_e1, demo_edit, demo_e2]
  refine ⟨⟨by decide, rfl⟩, ⟨by decide, rfl⟩, ⟨by decide, rfl, ?_⟩, ⟨?_, rfl⟩, trivial⟩
  · simp only [MAbs.touch, setShown_shown, demoShown]
  · rw [demo_poke]; decide

theorem demo_flushed (es : List (UInt32 × UInt32)) (p : Nat → Bool) :
    (demoM0.setShown 1 (demoShown es)).flushed p
      = [.absent, if p 1 then specScalar (.map (.num .u32) (.num .u32)) es else .absent, .absent] := rfl

theorem demo_marshal_fits (es : List (UInt32 × UInt32)) (hes : es = [] ∨ es = [(9, 6)]) :
    (MCall.marshal : MCall demoσ).Fits demoIsM (demoM0.setShown 1 (demoShown es)) := by
  have hc : (STy.map (.num .u32) (.num .u32)).Clean es ∧
      8 + sizes [.absent, specScalar (.map (.num .u32) (.num .u32)) es, .absent] < 2 ^ 32 := by
    rcases hes with rfl | rfl
    · exact ⟨⟨⟨by simp, by decide⟩, by decide⟩, by decide⟩
    · exact ⟨⟨⟨by simp [VTy.Storable], by decide⟩, by decide⟩, by decide⟩
  refine ⟨fun p => ?_, fun fn s hs _ => ?_⟩
  · rw [demo_flushed]
    cases p 1
    · show 8 + sizes [.absent, .absent, .absent] < 2 ^ 32
      decide
    · exact hc.2
  · by_cases hi : fn = 1
    · subst hi
      rw [setShown_shown, Option.some.injEq] at hs
      subst hs; exact hc.1
    · simp only [MAbs.setShown, dput_ne _ _ hi, demoM0, MAbs.start] at hs; cases hs

theorem demo_mtyped : MapsTyped demoσ demoIsM (List.replicate 3 .absent) := by
  intro fn _; left; rcases fn with _ | _ | _ | _ <;> rfl

theorem demo_mfits_all : MFits demoIsM demoM0 (demoMEdits ++ [.marshal]) :=
  (mfits_append _ _ _).2 ⟨demo_mfits, by rw [demo_msteps]; exact ⟨demo_marshal_fits _ (.inr rfl), trivial⟩⟩

example (s : St) (h : St.new 3 = .ok s) := C148_exact (.created h) (by decide) demo_mtyped demoMEdits demo_mfits_all

example (s : St) (h : St.new 3 = .ok s) := C148_reach_partial (.created h) (by decide) demo_mtyped [] demoMEdits 1
  (by decide) rfl rfl (by simp) (by simp [demoMEdits]) demo_mfits_all

/-- After a `Marshal` the map is emptied and another entry stored. -/
def demoMLost : List (MCall demoσ) := [.edit 1 .clear, .edit 1 (.set (1 : UInt32) (2 : UInt32))]

example (s : St) (h : St.new 3 = .ok s) := C148_lost (.created h) (by decide) demo_mtyped demoMEdits demoMLost
  ((mfits_append _ _ _).2 ⟨demo_mfits_all, by
    rw [msteps_append]
    show MFits demoIsM ((demoM0.steps demoMEdits).steps [.marshal]) demoMLost
    rw [demo_msteps]
    exact ⟨⟨by decide, rfl⟩, ⟨by decide, rfl⟩, trivial⟩⟩)
  (by
    rw [msteps_append]
    show AllDetached ((demoM0.steps demoMEdits).steps [.marshal]) demoMLost
    rw [demo_msteps]
    exact ⟨rfl, rfl, trivial⟩)

example (s : St) (h : St.new 3 = .ok s) := C148_read_disconnects (.created h) (by decide) demo_mtyped [] 1
  (1 : UInt32) (2 : UInt32)
  ⟨⟨by decide, rfl⟩, demo_marshal_fits [] (.inl rfl), ⟨by decide, rfl⟩, trivial⟩

/-- The message of a run, and what its maps hold under a key. -/
def mmessage (s : St) (cs : List (MCall demoσ)) : Res Bytes := do
  let L ← runMCalls cs (MSt.ofSt demoσ s)
  let (msg, _) ← L.marshal
  return msg

def mlookup (msg : Res Bytes) (k : UInt32) : Option (Option (UInt32)) :=
  match (do
    let msg ← msg
    let f ← St.new 3
    match f.unmarshal msg [] with
    | none => Res.panic
    | some s => MSt.get (MSt.ofSt demoσ s) 1 k) with
  | .ok v => some v
  | _ => none

def mdemo (cs : List (MCall demoσ)) (k : UInt32) : Option (Option (UInt32)) :=
  mlookup (do let w ← St.new 3; mmessage w cs) k

example : mdemo demoMEdits 9 = some (some 6) ∧ mdemo demoMEdits 3 = some none := by decide +kernel

example : mdemo (demoMEdits ++ [.marshal] ++ demoMLost) 9 = some (some 6) ∧
    mdemo (demoMEdits ++ [.marshal] ++ demoMLost) 1 = some none := by decide +kernel

/-- Read, marshalled, set: lost. Only marshalled, set: kept. -/
example : mdemo [.read 1, .marshal, .edit 1 (.set (1 : UInt32) (2 : UInt32))] 1 = some none ∧
    mdemo [.marshal, .edit 1 (.set (1 : UInt32) (2 : UInt32))] 1 = some (some 2) := by decide +kernel

/-- A message with the map 9 ↦ 5 is decoded, and its map edited. -/
def demoPre : List Op := [.set 1 (.map (.num .u32) (.num .u32)) [((9 : UInt32), (5 : UInt32))]]

example {w w' f s : St} {msg extra : Bytes} (hw : run 3 demoPre = .ok w) (hmar : w.marshal = .ok (msg, w'))
    (hf : St.new 3 = .ok f) (hu : f.unmarshal msg extra = some s) :=
  C148_decoded_lost (σ := demoσ) (isM := demoIsM) (m := 3) (pre := demoPre)
    ⟨by decide, ⟨by decide, ⟨⟨by simp [VTy.Storable], by decide⟩, by decide⟩⟩, by decide, trivial⟩ hw hmar hf hu
    (by
      intro fn hfn
      rcases fn with _ | _ | _ | _
      · cases hfn
      · exact .inr ⟨[((9 : UInt32), (5 : UInt32))], rfl, by simp [Ascending]⟩
      · exact .inl rfl
      · exact .inl rfl)
    demoMLost ⟨⟨by decide, rfl⟩, ⟨by decide, rfl⟩, trivial⟩ ⟨rfl, rfl, trivial⟩

end Claw
