import Verif.Props.ListCache
import Verif.Lemmas.Look
import Verif.Spec.StructList

/-!
# Lists of structs implement the specification
-/

namespace Claw

set_option linter.unusedSimpArgs false

/-- The structs the program made hold their records and have arrays of their own. -/
structure PoolOk (pool : List (St × Option Nat)) (recs : List (List Val)) : Prop where
  len : pool.length = recs.length
  each : ∀ i c, pool[i]? = some c → c.2 = none ∧ (∃ r, Rep r c.1 (encs (recs.getD i []) 0)) ∧
    c.1.idx.length = (recs.getD i []).length ∧ (recs.getD i []).length ≤ 65536 ∧ Canons (recs.getD i [])

theorem PoolOk.set {pool recs} (h : PoolOk pool recs) {i : Nat} {c : St} {v : List Val} {r : Nat}
    (hr : Rep r c (encs v 0)) (hl : c.idx.length = v.length) (hm : v.length ≤ 65536) (hc : Canons v) :
    PoolOk (pool.set i (c, none)) (recs.set i v) := by
  refine ⟨by simp [h.len], fun j d hj => ?_⟩
  rw [List.getElem?_set] at hj
  by_cases hij : i = j
  · subst hij
    simp only [if_true] at hj
    split at hj
    · rename_i hlt
      have hj := Option.some.inj hj
      subst hj
      have hg : (recs.set i v).getD i [] = v := by
        simp [List.getD_eq_getElem?_getD, List.getElem?_set, ← h.len, hlt]
      rw [hg]
      exact ⟨rfl, ⟨r, hr⟩, hl, hm, hc⟩
    · simp at hj
  · simp only [hij, if_false] at hj
    have : (recs.set i v).getD j [] = recs.getD j [] := by
      simp [List.getD_eq_getElem?_getD, List.getElem?_set, hij]
    rw [this]
    exact h.each j d hj

theorem getD_set_at {r : List Val} {fn : Nat} {v : Val} (h : fn < r.length) : (r.set fn v).getD fn .absent = v := by
  simp [List.getD_eq_getElem?_getD, List.getElem?_set, h]

theorem getD_set_off {r : List Val} {i fn : Nat} {v : Val} (h : i ≠ fn) :
    (r.set fn v).getD i .absent = r.getD i .absent := by
  simp [List.getD_eq_getElem?_getD, List.getElem?_set, Ne.symm h]

/-- Nothing the program made is in the array of the parent. -/
theorem SSt.parent_eq {L : SSt} {recs} (h : PoolOk L.pool recs) (p : St) : L.parent p = { L with st := p } := by
  have hall : ∀ c ∈ L.pool, c.2 = none := by
    intro c hc
    obtain ⟨i, hi⟩ := List.getElem?_of_mem hc
    exact (h.each i c hi).1
  have h1 : L.pool.map (SSt.look p) = L.pool := by
    refine (List.map_congr_left fun c hc => ?_).trans (List.map_id _)
    obtain ⟨c, o⟩ := c
    have := hall _ hc
    simp only at this
    subst this
    rfl
  have h2 : L.pool.map (fun c => (c.1, none)) = L.pool := by
    refine (List.map_congr_left fun c hc => ?_).trans (List.map_id _)
    obtain ⟨c, o⟩ := c
    have := hall _ hc
    simp only at this
    subst this
    rfl
  unfold SSt.parent
  split
  · rw [h1]
  · rw [h2]

/-- A struct with another number in its header. -/
theorem Rep.stamp {r j : Nat} {s : St} {fs : List Bytes} (h : Rep r s fs) :
    Rep (j % 65536) { s with seg := ⟨encodeHeaderFieldNum s.seg.data j, s.seg.spare⟩ } fs := by
  refine ⟨?_, h.len, h.wf, h.small, h.idx_parsed, h.idx_unparsed⟩
  show encodeHeaderFieldNum s.seg.data j = _
  rw [h.data, encodeHeaderFieldNum_hdr]

/-- Copying the items. -/
theorem copies_ok {recs : List (List Val)} : ∀ (is : List Nat) (L : SSt) (j : Nat), PoolOk L.pool recs →
    (∀ i ∈ is, i < recs.length) →
    ∃ ds pool, L.copies j is = .ok (ds, { L with pool := pool }) ∧ PoolOk pool recs ∧
      ItemSegs ds (is.map fun i => recs.getD i []) := by
  intro is
  induction is with
  | nil => intro L j h _; exact ⟨[], L.pool, rfl, h, by simp [ItemSegs]⟩
  | cons i is ih =>
    intro L j h hi
    have hlt : i < recs.length := hi i (by simp)
    have hlp : i < L.pool.length := by rw [h.len]; exact hlt
    obtain ⟨c, hc⟩ : ∃ c, L.pool[i]? = some c := ⟨_, List.getElem?_eq_getElem hlp⟩
    obtain ⟨k1, ⟨r, k2⟩, k3, k4, k5⟩ := h.each i c hc
    have hst := k2.stamp (j := j % 65536)
    have hset : recs.set i (recs.getD i []) = recs := by
      apply List.ext_getElem?
      intro q
      rw [List.getElem?_set]
      by_cases hq : i = q
      · subst hq; simp [hlt, List.getD_eq_getElem?_getD]
      · simp [hq]
    have hp := h.set (i := i) hst k3 k4 k5
    rw [hset] at hp
    obtain ⟨ds, pool, e1, e2, e3⟩ := ih { L with pool := L.pool.set i (_, none) } (j + 1) hp
      (fun q hq => hi q (by simp [hq]))
    refine ⟨encodeHeaderFieldNum c.1.seg.data (j % 65536) :: ds, pool, ?_, e2, ?_⟩
    · simp only [SSt.copies, hc, SSt.item, k1]
      rw [e1]
      rfl
    · simp only [List.map_cons, ItemSegs]
      refine ⟨⟨j % 65536 % 65536, ?_⟩, e3⟩
      rw [k2.data, encodeHeaderFieldNum_hdr]

theorem items_canon {pool recs} (h : PoolOk pool recs) : ∀ is : List Nat, (∀ i ∈ is, i < recs.length) →
    ItemsCanon (is.map fun i => recs.getD i []) := by
  intro is
  induction is with
  | nil => intro _; simp [ItemsCanon]
  | cons i is ih =>
    intro hi
    have hlp : i < pool.length := by rw [h.len]; exact hi i (by simp)
    obtain ⟨_, _, _, k4, k5⟩ := h.each i _ (List.getElem?_eq_getElem hlp)
    simp only [List.map_cons, ItemsCanon]
    exact ⟨k4, k5, ih fun q hq => hi q (by simp [hq])⟩

/-- Writing one list. -/
theorem sync_ok {L : SSt} {recs : List (List Val)} {vs : List Val} {fn : Nat} {o : SList}
    (hr : Rep 0 L.st (encs vs 0)) (hl : L.st.idx.length = vs.length) (hm : vs.length ≤ 65536)
    (he : L.st.isSetEnabled = false) (hp : PoolOk L.pool recs) (ho : L.lists fn = some o) (hfn : fn < vs.length)
    (hi : ∀ i ∈ o.items, i < recs.length) (hd : o.dirty = false → o.items = [] ∧ vs.getD fn .absent = .absent)
    (hs : 8 + sizes (vs.set fn (specStructs (o.items.map fun i => recs.getD i []))) < 2 ^ 32) :
    ∃ L', L.sync fn = .ok L' ∧ Rep 0 L'.st (encs (vs.set fn (specStructs (o.items.map fun i => recs.getD i []))) 0) ∧
      L'.st.idx.length = vs.length ∧ L'.st.isSetEnabled = false ∧ PoolOk L'.pool recs ∧ L'.pending = L.pending ∧
      L'.lists = fun i => if i = fn then some ⟨o.items, false⟩ else L.lists i := by
  by_cases hdirty : o.dirty = true
  · obtain ⟨ds, pool, e1, e2, e3⟩ := copies_ok o.items L 0 hp hi
    have hcan := items_canon hp o.items hi
    generalize hit : (o.items.map fun i => recs.getD i []) = items at *
    have hsz : 8 + itemSizes items < 2 ^ 40 := by
      cases hp : items with
      | nil => simp [itemSizes]
      | cons vs' items' =>
        have := sizes_ge (vs.set fn (specStructs items)) fn
        rw [getD_set_at hfn] at this
        simp only [specStructs, hp, List.isEmpty_cons, Bool.false_eq_true, if_false, Val.size] at this
        simp only [specStructs, hp, List.isEmpty_cons, Bool.false_eq_true, if_false] at hs
        omega
    obtain ⟨p1, p2, p3⟩ := store_pre (s := L.st) (vs := vs) (by omega) hm fn (by omega)
      (specStructs items) (canon_specStructs _ hcan).stored hs
      (hdr fn FTListStructs (8 + (encItems items 0).length) ++ encItems items 0)
      (by intro hz; rw [isAbsent_specStructs] at hz; simp [specStructs, hz, Val.enc])
    obtain ⟨st, q1, q2, q3, _⟩ := storePlain_rep hr fn (by omega) (specStructs items).isAbsent _ p1 p2
    rw [p3] at q2
    have hz : (o.items.length == 0) = (specStructs items).isAbsent := by
      rw [isAbsent_specStructs, ← hit]; cases o.items <;> simp
    refine ⟨{ L with
        st := st, pool := pool, lists := fun i => if i = fn then some ⟨o.items, false⟩ else L.lists i }, ?_, q2,
      by rw [← hl]; exact q3.len, q3.enabled.trans he, e2, rfl, rfl⟩
    simp only [SSt.sync, ho, hdirty, if_true, e1, Res.ok_bind, syncList, structsBlob_eq fn ds items e3 hsz,
      Res.ofOption_some, hz, q1]
    rw [SSt.parent_eq (L := { L with pool := pool }) e2]
    rfl
  · have hdf : o.dirty = false := by simpa using hdirty
    obtain ⟨h1, h2⟩ := hd hdf
    refine ⟨L, ?_, ?_, hl, he, hp, rfl, ?_⟩
    · simp only [SSt.sync, ho]; rw [if_neg hdirty]
    · have : vs.set fn (specStructs (o.items.map fun i => recs.getD i [])) = vs := by
        rw [h1]
        apply List.ext_getElem?
        intro q
        rw [List.getElem?_set]
        by_cases hq : fn = q
        · subst hq
          rw [List.getD_eq_getElem?_getD, List.getElem?_eq_getElem hfn] at h2
          simp only [Option.getD_some] at h2
          simp [hfn, h2, specStructs]
        · simp [hq]
      rw [this]; exact hr
    · funext i
      by_cases hif : i = fn
      · subst hif; simp only [if_true, ho]; obtain ⟨a, b⟩ := o; simp only at hdf; rw [hdf]
      · simp only [hif, if_false]

namespace SAbs

theorem flushed_length (A : SAbs) (p : Nat → Bool) : (A.flushed p).length = A.fields.length := by
  simp [SAbs.flushed]

theorem flushed_set (A : SAbs) (p : Nat → Bool) (fn : Nat) (items : List Nat) (hfn : fn < A.fields.length)
    (h : A.shown fn = some ⟨true, items⟩) :
    (A.flushed p).set fn (A.now items) = A.flushed (fun i => p i || i == fn) := by
  apply List.ext_getElem?
  intro i
  simp only [SAbs.flushed, List.getElem?_set, List.length_mapIdx, List.getElem?_mapIdx]
  by_cases hi : fn = i
  · subst hi
    simp [hfn, h]
  · have : (i == fn) = false := by simpa using fun e => hi e.symm
    simp [hi, this]

theorem flushed_none (A : SAbs) : A.flushed (fun _ => false) = A.fields := by
  apply List.ext_getElem?
  intro i
  simp only [SAbs.flushed, List.getElem?_mapIdx, Bool.false_eq_true, if_false]
  cases A.fields[i]? <;> simp
  cases A.shown i with
  | none => rfl
  | some s => obtain ⟨l, v⟩ := s; cases l <;> rfl

theorem flushed_getD (A : SAbs) (p : Nat → Bool) (i : Nat) (hi : i < A.fields.length) :
    (A.flushed p).getD i .absent = match A.shown i with
      | some ⟨true, items⟩ => if p i then A.now items else A.fields.getD i .absent
      | _ => A.fields.getD i .absent := by
  simp only [SAbs.flushed, List.getD_eq_getElem?_getD, List.getElem?_mapIdx, List.getElem?_eq_getElem hi,
    Option.map_some, Option.getD_some]
  cases A.shown i with
  | none => rfl
  | some s => obtain ⟨l, v⟩ := s; cases l <;> rfl

end SAbs

/-- Writing the pending lists. -/
theorem ssyncAll_ok {A : SAbs} (hm : A.fields.length ≤ 65536) (hs : ∀ p, 8 + sizes (A.flushed p) < 2 ^ 32) :
    ∀ (rest : List Nat) (L : SSt) (p : Nat → Bool), Rep 0 L.st (encs (A.flushed p) 0) →
      L.st.idx.length = A.fields.length → L.st.isSetEnabled = false → PoolOk L.pool A.recs →
      (∀ fn ∈ rest, fn < A.fields.length ∧ ∃ o, L.lists fn = some o ∧ A.shown fn = some ⟨true, o.items⟩ ∧
        (∀ i ∈ o.items, i < A.recs.length) ∧ (o.dirty = false → o.items = [] ∧ A.fields.getD fn .absent = .absent)) →
      rest.Nodup → (∀ fn ∈ rest, p fn = false) →
      ∃ L', L.syncAll rest = .ok L' ∧ Rep 0 L'.st (encs (A.flushed fun i => p i || rest.any (fun q => i == q)) 0) ∧
        L'.st.idx.length = A.fields.length ∧ L'.st.isSetEnabled = false ∧ PoolOk L'.pool A.recs ∧
        ∀ i, (L'.lists i).map SList.items = (L.lists i).map SList.items := by
  intro rest
  induction rest with
  | nil => intro L p hr hl he hp _ _ _; exact ⟨L, rfl, by simpa using hr, hl, he, hp, fun _ => rfl⟩
  | cons fn rest ih =>
    intro L p hr hl he hp hobj hnd hpf
    obtain ⟨hfn, o, ho, hsh, hit, hd⟩ := hobj fn (by simp)
    have hset := SAbs.flushed_set A p fn o.items hfn hsh
    have hnow : A.now o.items = specStructs (o.items.map fun i => A.recs.getD i []) := rfl
    rw [hnow] at hset
    obtain ⟨L1, e1, e2, e3, e4, e5, e6, e7⟩ := sync_ok (vs := A.flushed p) hr (by rw [SAbs.flushed_length]; exact hl)
      (by rw [SAbs.flushed_length]; exact hm) he hp ho (by rw [SAbs.flushed_length]; exact hfn) hit
      (by
        intro hdf
        obtain ⟨k1, k2⟩ := hd hdf
        refine ⟨k1, ?_⟩
        rw [SAbs.flushed_getD A p fn hfn, hsh]
        simp only [hpf fn (by simp), Bool.false_eq_true, if_false]
        exact k2)
      (by rw [hset]; exact hs _)
    rw [hset] at e2
    rw [SAbs.flushed_length] at e3
    rw [List.nodup_cons] at hnd
    obtain ⟨L2, g1, g2, g3, g4, g5, g6⟩ := ih L1 (fun i => p i || i == fn) e2 e3 e4 e5
      (by
        intro q hq
        have hne : q ≠ fn := by rintro rfl; exact hnd.1 hq
        obtain ⟨k1, o', k2, k3⟩ := hobj q (by simp [hq])
        refine ⟨k1, o', ?_, k3⟩
        rw [e7]; simp only [hne, if_false]; exact k2)
      hnd.2
      (by
        intro q hq
        have hne : q ≠ fn := by rintro rfl; exact hnd.1 hq
        simp only [hpf q (by simp [hq]), Bool.false_or, beq_eq_false_iff_ne]; exact hne)
    refine ⟨L2, ?_, ?_, g3, g4, g5, ?_⟩
    · simp only [SSt.syncAll, e1, Res.ok_bind, g1]
    · have : (fun i => p i || (fn :: rest).any (fun q => i == q)) =
          fun i => (p i || i == fn) || rest.any (fun q => i == q) := by
        funext i; simp [Bool.or_assoc]
      rw [this]; exact g2
    · intro i
      rw [g6 i, e7]
      by_cases hif : i = fn
      · subst hif; simp [ho]
      · simp [hif]

/-- What is known of a list that was touched. -/
structure Shows (L : SSt) (A : SAbs) (fn : Nat) (o : SList) (s : SShown) : Prop where
  obj : L.lists fn = some o
  abs : A.shown fn = some s
  items : o.items = s.items
  live : s.live = true ↔ fn ∈ L.pending
  clean : s.live = true → o.dirty = false → o.items = [] ∧ A.fields.getD fn .absent = .absent
  exist : ∀ i ∈ o.items, i < A.recs.length
  field : fn < A.fields.length

structure SInv (isL : Nat → Bool) (L : SSt) (A : SAbs) : Prop where
  rep : Rep 0 L.st (encs A.fields 0)
  len : L.st.idx.length = A.fields.length
  max : A.fields.length ≤ 65536
  canon : Canons A.fields
  cfg : L.st.isSetEnabled = false
  pool : PoolOk L.pool A.recs
  lists : ∀ fn, (L.lists fn = none ∧ A.shown fn = none ∧ fn ∉ L.pending ∧ (isL fn = true → A.fields.getD fn .absent = .absent)) ∨
    (isL fn = true ∧ ∃ o s, Shows L A fn o s)
  nodup : L.pending.Nodup

/-- A list that a call does not concern. -/
theorem SInv.frame {isL : Nat → Bool} {L L' : SSt} {A A' : SAbs} (h : SInv isL L A) (fn : Nat)
    (hl : L'.lists fn = L.lists fn) (hs : A'.shown fn = A.shown fn) (hp : fn ∈ L'.pending ↔ fn ∈ L.pending)
    (hf : A'.fields.length = A.fields.length) (hg : A'.fields.getD fn .absent = A.fields.getD fn .absent)
    (hr : A.recs.length ≤ A'.recs.length) :
    (L'.lists fn = none ∧ A'.shown fn = none ∧ fn ∉ L'.pending ∧ (isL fn = true → A'.fields.getD fn .absent = .absent)) ∨
    (isL fn = true ∧ ∃ o s, Shows L' A' fn o s) := by
  rcases h.lists fn with ⟨h1, h2, h3, h4⟩ | ⟨h0, o, s, k⟩
  · exact Or.inl ⟨hl.trans h1, hs.trans h2, fun hm => h3 (hp.1 hm), fun hi => hg.trans (h4 hi)⟩
  · exact Or.inr ⟨h0, o, s, hl.trans k.obj, hs.trans k.abs, k.items, k.live.trans hp.symm,
      fun h1 h2 => ⟨(k.clean h1 h2).1, hg.trans (k.clean h1 h2).2⟩,
      fun i hi => Nat.lt_of_lt_of_le (k.exist i hi) hr, by rw [hf]; exact k.field⟩

/-- Getting a list: nothing but the first touch changes. -/
theorem saccess_ok {isL : Nat → Bool} {L : SSt} {A : SAbs} (h : SInv isL L A) {fn : Nat} (hfn : fn < A.fields.length)
    (hL : isL fn = true) (m : Nat) : ∃ o L', L.access fn m = .ok (o, L') ∧ SInv isL L' (A.step (.touch fn m)) ∧
      Shows L' (A.step (.touch fn m)) fn o (A.touch fn) := by
  rcases h.lists fn with ⟨h1, h2, h3, h4⟩ | ⟨_, o, s, hs⟩
  · have hb : blob (encs A.fields 0) fn = [] := by
      have := h4 hL
      rw [blob_encs, this]; rfl
    have htouch : A.touch fn = ⟨true, []⟩ := by simp [SAbs.touch, h2]
    have hens := h.rep.fieldOffset fn
    have hrep' := h.rep.parsed
    have hgl := getListStructs_absent hrep' fn m (Or.inr hb)
    have hfield : ∃ off sz, L.st.fieldOffset fn = .ok ((off, sz), { L.st with
        idx := idxOf L.st.idx.length (encs A.fields 0), parsed := true }) := by
      rw [hens]
      exact ⟨_, _, rfl⟩
    obtain ⟨off, sz, hfield⟩ := hfield
    have hshow : Shows { L with
        st := { L.st with idx := idxOf L.st.idx.length (encs A.fields 0), parsed := true }
        pool := L.pool ++ SSt.places (off + HeaderSize) []
        lists := fun i => if i = fn then some ⟨[], false⟩ else L.lists i
        pending := L.pending ++ [fn] } (A.step (.touch fn m)) fn ⟨[], false⟩ (A.touch fn) :=
      ⟨by simp, by simp [SAbs.step, SAbs.setShown], by simp [htouch], by simp [htouch], fun _ _ => ⟨rfl, h4 hL⟩,
        by simp, hfn⟩
    refine ⟨⟨[], false⟩, _, ?_, ?_, hshow⟩
    · simp only [SSt.access, h1, hfield, Res.ok_bind]
      rw [hgl]
      rfl
    · refine ⟨h.rep.parsed, by simp [SAbs.step, SAbs.setShown, h.len], h.max, h.canon, h.cfg, ?_, fun i => ?_, ?_⟩
      · simpa [SSt.places, SAbs.step, SAbs.setShown] using h.pool
      · by_cases hi : i = fn
        · subst hi
          exact Or.inr ⟨hL, _, _, hshow⟩
        · exact h.frame i (by simp [hi]) (by simp [SAbs.step, SAbs.setShown, hi]) (by simp [hi]) rfl rfl (Nat.le_refl _)
      · simp only [List.nodup_append, h.nodup, List.nodup_cons, List.not_mem_nil, not_false_eq_true, List.nodup_nil,
          and_self, List.mem_singleton, true_and]
        rintro a ha b rfl rfl
        exact h3 ha
  · have htouch : A.touch fn = s := by simp [SAbs.touch, hs.abs]
    have hstep : A.step (.touch fn m) = A := by
      simp only [SAbs.step, htouch, SAbs.setShown]
      have : (fun i => if i = fn then some s else A.shown i) = A.shown := by
        funext i
        by_cases hi : i = fn
        · subst hi; simp [hs.abs]
        · simp [hi]
      rw [this]
    rw [hstep, htouch]
    exact ⟨o, L, by simp [SSt.access, hs.obj], h, hs⟩

theorem touch_exist {isL : Nat → Bool} {L : SSt} {A : SAbs} (h : SInv isL L A) (fn i : Nat)
    (hi : i ∈ (A.touch fn).items) : i < A.recs.length := by
  rcases h.lists fn with ⟨_, h2, _, _⟩ | ⟨_, o, s, k⟩
  · simp [SAbs.touch, h2] at hi
  · simp only [SAbs.touch, k.abs, Option.getD_some] at hi
    rw [← k.items] at hi
    exact k.exist i hi

/-- Editing a list. -/
theorem sedit_ok {isL : Nat → Bool} {L : SSt} {A : SAbs} (h : SInv isL L A) {fn : Nat} (hfn : fn < A.fields.length)
    (hL : isL fn = true) (m : Nat) (g : List Nat → Option (List Nat)) {items : List Nat}
    (hg : g (A.touch fn).items = some items) (hi : ∀ i ∈ items, i < A.recs.length) :
    ∃ L', L.edit fn m g = .ok L' ∧ SInv isL L' (A.setShown fn (some ⟨(A.touch fn).live, items⟩)) := by
  obtain ⟨o, L1, e1, h1, k⟩ := saccess_ok h hfn hL m
  refine ⟨_, by simp only [SSt.edit, e1, Res.ok_bind, k.items, hg]; rfl, ?_⟩
  refine ⟨h1.rep, h1.len, h1.max, h1.canon, h1.cfg, h1.pool, fun i => ?_, h1.nodup⟩
  by_cases hif : i = fn
  · subst hif
    exact Or.inr ⟨hL, ⟨items, true⟩, ⟨(A.touch i).live, items⟩, by simp, by simp [SAbs.setShown], rfl, k.live,
      by simp, hi, hfn⟩
  · exact h1.frame i (by simp [hif]) (by simp [SAbs.setShown, SAbs.step, hif]) Iff.rfl rfl rfl (Nat.le_refl _)

/-- `Marshal`. -/
theorem smarshal_ok {isL : Nat → Bool} {L : SSt} {A : SAbs} (h : SInv isL L A)
    (hs : ∀ p, 8 + sizes (A.flushed p) < 2 ^ 32) :
    ∃ msg L', L.marshal = .ok (msg, L') ∧ SInv isL L' (A.step .marshal) ∧
      msg = hdr 0 FTStruct (total (encs A.encoded 0)) ++ (encs A.encoded 0).flatten := by
  have hpend : ∀ fn ∈ L.pending, fn < A.fields.length ∧ ∃ o, L.lists fn = some o ∧ A.shown fn = some ⟨true, o.items⟩ ∧
      (∀ i ∈ o.items, i < A.recs.length) ∧ (o.dirty = false → o.items = [] ∧ A.fields.getD fn .absent = .absent) := by
    intro fn hfn
    rcases h.lists fn with ⟨_, _, h3, _⟩ | ⟨_, o, s, k⟩
    · exact absurd hfn h3
    · have hlive := k.live.2 hfn
      refine ⟨k.field, o, k.obj, ?_, k.exist, k.clean hlive⟩
      rw [k.abs, k.items]
      obtain ⟨l, it⟩ := s
      simp only at hlive
      rw [hlive]
  obtain ⟨L1, e1, e2, e3, e4, e5, e6⟩ := ssyncAll_ok h.max hs L.pending L (fun _ => false)
    (by rw [SAbs.flushed_none]; exact h.rep) h.len h.cfg h.pool hpend h.nodup (by simp)
  have hflush : (A.flushed fun i => false || L.pending.any fun q => i == q) = A.encoded := by
    apply List.ext_getElem?
    intro i
    simp only [SAbs.encoded, SAbs.flushed, List.getElem?_mapIdx, Bool.false_or, if_true]
    cases A.fields[i]? with
    | none => rfl
    | some x =>
      simp only [Option.map_some]
      rcases h.lists i with ⟨_, h2, _, _⟩ | ⟨_, o, s, k⟩
      · rw [h2]
      · rw [k.abs]
        obtain ⟨l, it⟩ := s
        cases l with
        | false => rfl
        | true =>
          have := k.live.1 rfl
          have hany : (L.pending.any fun q => i == q) = true := by
            rw [List.any_eq_true]; exact ⟨i, this, by simp⟩
          simp [hany]
  rw [hflush] at e2
  have hm := marshal_rep e2 e4
  have hpar := SSt.parent_eq (L := { L1 with pending := [] }) e5 L1.st
  refine ⟨_, { L1 with pending := [] }, ?_, ?_, rfl⟩
  · simp only [SSt.marshal, e1, Res.ok_bind, hm, hpar]
    rfl
  · have hlen : A.encoded.length = A.fields.length := SAbs.flushed_length A _
    refine ⟨e2, by rw [show (A.step .marshal).fields = A.encoded from rfl, hlen]; exact e3,
      by rw [show (A.step .marshal).fields = A.encoded from rfl, hlen]; exact h.max, ?_, e4, e5, fun i => ?_, List.nodup_nil⟩
    · show Canons A.encoded
      rw [canons_iff]
      intro i
      by_cases hi : i < A.fields.length
      · rw [SAbs.encoded, SAbs.flushed_getD A _ i hi]
        rcases h.lists i with ⟨_, h2, _, _⟩ | ⟨_, o, s, k⟩
        · rw [h2]; exact h.canon.get i
        · rw [k.abs]
          obtain ⟨l, it⟩ := s
          cases l with
          | false => exact h.canon.get i
          | true =>
            simp only [if_true]
            have hit := k.items
            simp only at hit
            refine canon_specStructs _ ?_
            rw [← hit]
            exact items_canon h.pool o.items k.exist
      · rw [List.getD_eq_getElem?_getD, List.getElem?_eq_none (by rw [hlen]; omega)]; simp [Val.Canon]
    · have e6i := e6 i
      rcases h.lists i with ⟨h1, h2, h3, h4⟩ | ⟨h0, o, s, k⟩
      · left
        rw [h1] at e6i
        refine ⟨by simpa using e6i, by simp [SAbs.step, h2], by simp, fun hi => ?_⟩
        show A.encoded.getD i .absent = _
        by_cases hlt : i < A.fields.length
        · rw [SAbs.encoded, SAbs.flushed_getD A _ i hlt, h2]; exact h4 hi
        · rw [List.getD_eq_getElem?_getD, List.getElem?_eq_none (by rw [hlen]; omega)]; rfl
      · right
        rw [k.obj] at e6i
        cases ho : L1.lists i with
        | none => rw [ho] at e6i; simp at e6i
        | some o' =>
          rw [ho] at e6i
          simp only [Option.map_some, Option.some.injEq] at e6i
          refine ⟨h0, o', { s with live := false }, ho, by simp [SAbs.step, k.abs], e6i.trans k.items, by simp, by simp,
            ?_, ?_⟩
          · rw [e6i]; exact k.exist
          · show i < A.encoded.length
            rw [hlen]; exact k.field

theorem spec_off (op : Op) (r : List Val) (fn : Nat) (h : op.field ≠ some fn) :
    (op.spec r).getD fn .absent = r.getD fn .absent := by
  have off : ∀ (n : Nat) (v : Val), n ≠ fn → (r.set n v).getD fn .absent = r.getD fn .absent :=
    fun n v hn => getD_set_off (Ne.symm hn)
  cases op <;> simp only [Op.spec, Op.field, ne_eq, Option.some.injEq] at h ⊢ <;> first | exact off _ _ h | rfl

theorem sitem_ok {isL : Nat → Bool} {L : SSt} {A : SAbs} (h : SInv isL L A) {i : Nat} {op : Op}
    (hf : SOp.Fits isL A (.item i op)) :
    ∃ L', SOp.run L (.item i op) = .ok L' ∧ SInv isL L' (A.step (.item i op)) := by
  obtain ⟨f1, f2, f3⟩ := hf
  have hlp : i < L.pool.length := by rw [h.pool.len]; exact f1
  obtain ⟨c, hc⟩ : ∃ c, L.pool[i]? = some c := ⟨_, List.getElem?_eq_getElem hlp⟩
  obtain ⟨k1, ⟨r, k2⟩, k3, k4, k5⟩ := h.pool.each i c hc
  obtain ⟨c', e1, e2, e3, e4⟩ := op_rep op k2 (by omega) k4 k5 (by rw [k3]; exact f2) f3
  refine ⟨{ L with pool := L.pool.set i (c', none) }, ?_, ?_⟩
  · simp only [SOp.run, hc, e1, Res.ok_bind, SSt.item, k1]
    rfl
  · refine ⟨h.rep, h.len, h.max, h.canon, h.cfg, ?_, fun fn => ?_, h.nodup⟩
    · exact h.pool.set e2 (by rw [e3.len, k3, spec_length]; rfl) (by rw [spec_length]; exact k4) e4
    · exact h.frame fn rfl rfl Iff.rfl rfl rfl (by simp [SAbs.step])

theorem sstep_ok {isL : Nat → Bool} {L : SSt} {A : SAbs} (h : SInv isL L A) {op : SOp} (hf : op.Fits isL A) :
    ∃ L', op.run L = .ok L' ∧ SInv isL L' (A.step op) := by
  match op with
  | .call op =>
    obtain ⟨f1, f2, f3⟩ := hf
    obtain ⟨p, e1, e2, e3, e4⟩ := op_rep op h.rep (by rw [h.len]; omega) h.max h.canon (by rw [h.len]; exact f1) f3
    refine ⟨{ L with st := p }, ?_, ?_⟩
    · simp only [SOp.run, e1, Res.ok_bind, SSt.parent_eq h.pool]; rfl
    · refine ⟨e2, ?_, ?_, e4, e3.enabled.trans h.cfg, h.pool, fun fn => ?_, h.nodup⟩
      · rw [show (A.step (.call op)).fields = op.spec A.fields from rfl, spec_length, ← h.len]; exact e3.len
      · rw [show (A.step (.call op)).fields = op.spec A.fields from rfl, spec_length]; exact h.max
      · by_cases ho : op.field = some fn
        · have hL := f2 fn ho
          rcases h.lists fn with ⟨h1, h2, h3, _⟩ | ⟨h0, _⟩
          · exact Or.inl ⟨h1, h2, h3, fun hh => by rw [hL] at hh; simp at hh⟩
          · rw [hL] at h0; simp at h0
        · exact h.frame fn rfl rfl Iff.rfl (spec_length op A.fields) (spec_off op A.fields fn ho) (Nat.le_refl _)
  | .make m =>
    obtain ⟨c, e1, e2, e3, _⟩ := new_rep m
    refine ⟨{ L with pool := L.pool ++ [(c, none)] }, by simp only [SOp.run, e1, Res.ok_bind]; rfl, ?_⟩
    refine ⟨h.rep, h.len, h.max, h.canon, h.cfg, ⟨by simp [SAbs.step, h.pool.len], fun i d hd => ?_⟩, fun fn => ?_, h.nodup⟩
    · by_cases hi : i < L.pool.length
      · rw [List.getElem?_append_left hi] at hd
        have : (A.step (.make m)).recs.getD i [] = A.recs.getD i [] := by
          simp [SAbs.step, List.getD_eq_getElem?_getD, List.getElem?_append_left (by rw [← h.pool.len]; exact hi : i < A.recs.length)]
        rw [this]
        exact h.pool.each i d hd
      · rw [List.getElem?_append_right (by omega)] at hd
        have hz : i = L.pool.length := by
          have := (List.getElem?_eq_some_iff.1 hd).1
          simp at this; omega
        subst hz
        simp only [Nat.sub_self, List.getElem?_cons_zero, Option.some.injEq] at hd
        subst hd
        have : (A.step (.make m)).recs.getD L.pool.length [] = List.replicate m .absent := by
          simp [SAbs.step, List.getD_eq_getElem?_getD, h.pool.len]
        rw [this]
        exact ⟨rfl, ⟨0, e2⟩, by simpa using e3, by simpa using (show m ≤ 65536 from hf), canons_replicate m⟩
    · exact h.frame fn rfl rfl Iff.rfl rfl rfl (by simp [SAbs.step])
  | .item i op => exact sitem_ok h hf
  | .touch fn m =>
    obtain ⟨o, L', e1, e2, _⟩ := saccess_ok h hf.1 hf.2 m
    exact ⟨L', by simp only [SOp.run, e1, Res.ok_bind]; rfl, e2⟩
  | .append fn m ids =>
    refine sedit_ok h hf.1 hf.2.1 m (fun is => some (is ++ ids)) rfl fun i hi => ?_
    rw [List.mem_append] at hi
    rcases hi with hi | hi
    · exact touch_exist h fn i hi
    · exact hf.2.2 i hi
  | .put fn m j id =>
    obtain ⟨f1, f2, f3, f4⟩ := hf
    refine sedit_ok h f1 f2 m (fun is => if j < is.length then some (is.set j id) else none) (if_pos f4) fun i hi => ?_
    rcases List.mem_or_eq_of_mem_set hi with hi | hi
    · exact touch_exist h fn i hi
    · subst hi; exact f3
  | .setAll fn m ids => exact sedit_ok h hf.1 hf.2.1 m (fun _ => some ids) rfl hf.2.2
  | .clear fn =>
    have hfn : fn < A.fields.length := hf
    obtain ⟨sp, e1, e2⟩ := removeField_rep h.rep fn (by rw [h.len]; exact hfn)
    have henc : (encs A.fields 0).set fn [] = encs (A.fields.set fn .absent) 0 := by
      have := encs_set A.fields 0 fn .absent
      simpa [Val.enc] using this
    rw [henc] at e1 e2
    refine ⟨_, by simp only [SOp.run, SSt.clear, e1, Res.ok_bind, SSt.parent_eq h.pool]; rfl, ?_⟩
    refine ⟨e2, ?_, ?_, h.canon.set _ _ (by simp [Val.Canon]), h.cfg, h.pool, fun i => ?_, h.nodup.filter _⟩
    · simp [SAbs.step, SAbs.setShown, h.len]
    · simpa [SAbs.step, SAbs.setShown] using h.max
    · by_cases hi : i = fn
      · subst hi
        exact Or.inl ⟨by simp, by simp [SAbs.step, SAbs.setShown], by simp, fun _ => getD_set_at hfn⟩
      · exact h.frame i (by simp [hi]) (by simp [SAbs.step, SAbs.setShown, hi]) (by simp [hi])
          (by simp [SAbs.step, SAbs.setShown]) (getD_set_off hi) (Nat.le_refl _)
  | .marshal =>
    obtain ⟨msg, L', e1, e2, _⟩ := smarshal_ok h hf
    exact ⟨L', by simp only [SOp.run, e1, Res.ok_bind]; rfl, e2⟩

theorem sruns_ok {isL : Nat → Bool} : ∀ (ops : List SOp) {L : SSt} {A : SAbs}, SInv isL L A → SFits isL A ops →
    ∃ L', runSOps ops L = .ok L' ∧ SInv isL L' (A.steps ops) := by
  intro ops
  induction ops with
  | nil => intro L A h _; exact ⟨L, rfl, h⟩
  | cons op ops ih =>
    intro L A h hf
    obtain ⟨L1, e1, h1⟩ := sstep_ok h hf.1
    obtain ⟨L2, e2, h2⟩ := ih h1 hf.2
    exact ⟨L2, by simp only [runSOps, e1, Res.ok_bind, e2], h2⟩

theorem sbegins_inv {m : Nat} {r : List Val} {s : St} (hb : Begins m r s) (hm : m ≤ 65536) {isL : Nat → Bool}
    (hL : ∀ fn, isL fn = true → r.getD fn .absent = .absent) :
    SInv isL (SSt.ofSt s) (SAbs.start r) := by
  obtain ⟨h1, h2, h3, h4, h5⟩ := begins_rep hb hm
  exact ⟨h1, by simp only [SSt.ofSt, SAbs.start]; omega, by simp only [SAbs.start]; omega, h4, h5,
    ⟨rfl, fun i c h => by simp [SSt.ofSt] at h⟩,
    fun fn => Or.inl ⟨rfl, rfl, by simp [SSt.ofSt], hL fn⟩, List.nodup_nil⟩

end Claw
