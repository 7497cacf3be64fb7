import Verif.Lemmas.StructList

/-!
# Lists of structs that were decoded: the items are views of the array of the parent
-/

namespace Claw

set_option linter.unusedSimpArgs false

/-- Structs that are views of `mem`, one behind the other from `base` on, the first with number `j`. -/
def ItemViews (mem : Bytes) : Nat → Nat → List St → List (List Val) → Prop
  | _, _, [], [] => True
  | base, j, c :: cs, vs :: items =>
    c.seg.data = hdr (j % 65536) FTStruct (total (encs vs 0)) ++ (encs vs 0).flatten ∧
      c.seg.data ++ c.seg.spare = mem.drop base ∧ ItemViews mem (base + c.seg.data.length) (j + 1) cs items
  | _, _, _, _ => False

theorem parse_views (mem : Bytes) (m : Nat) (items : List (List Val)) :
    ∀ (extra : Bytes) (base j fuel : Nat), ItemsCanon items → itemSizes items < 2 ^ 32 →
      (encItems items j).length ≤ fuel → mem.drop base = encItems items j ++ extra →
      ∃ cs, parseStructsF m extra fuel (encItems items j) = .ok cs ∧ ItemViews mem base j cs items := by
  induction items with
  | nil =>
    intro extra base j fuel _ _ _ _
    refine ⟨[], ?_, by simp [ItemViews]⟩
    cases fuel <;> simp [parseStructsF, encItems, HeaderSize]
  | cons vs items ih =>
    intro extra base j fuel hc hs hf hmem
    simp only [ItemsCanon] at hc
    simp only [itemSizes] at hs
    rw [encItems_length] at hf
    simp only [itemSizes] at hf
    cases fuel with
    | zero => omega
    | succ fuel =>
      have hsm : total (encs vs 0) < 2 ^ 32 := by rw [total_encs]; omega
      have hitem : (hdr (j % 65536) FTStruct (total (encs vs 0)) ++ (encs vs 0).flatten).length
          = total (encs vs 0) := by simp [total]
      have hassoc : encItems (vs :: items) j
          = (hdr (j % 65536) FTStruct (total (encs vs 0)) ++ (encs vs 0).flatten) ++ encItems items (j + 1) := by
        simp [encItems]
      have hdec := decodeHeader_hdr (fn := j % 65536) (by omega) (ft := FTStruct) (by decide)
        (f := total (encs vs 0)) (by omega) ((encs vs 0).flatten ++ encItems items (j + 1))
      rw [← List.append_assoc, ← hassoc] at hdec
      have hlen : (encItems (vs :: items) j).length = total (encs vs 0) + (encItems items (j + 1)).length := by
        rw [hassoc, List.length_append, hitem]
      have h8 : 8 ≤ total (encs vs 0) := by simp [total]
      have htake : (encItems (vs :: items) j).take (total (encs vs 0))
          = hdr (j % 65536) FTStruct (total (encs vs 0)) ++ (encs vs 0).flatten := by
        rw [hassoc]; exact List.take_left' hitem
      have hdrop : (encItems (vs :: items) j).drop (total (encs vs 0)) = encItems items (j + 1) := by
        rw [hassoc]; exact List.drop_left' hitem
      simp only [parseStructsF, hdec, HeaderSize, ne_eq, not_true_eq_false, if_false, htake, hdrop]
      rw [if_pos (by omega), if_neg (by omega)]
      have wf := encs_wf vs hc.1 (by omega) hc.2.1
      have hp := parse_rep (r := j % 65536) (s := ⟨⟨hdr (j % 65536) FTStruct (total (encs vs 0)) ++ (encs vs 0).flatten,
        encItems items (j + 1) ++ extra⟩, List.replicate m Entry.zero, false, false, none, false, []⟩)
        (fs := padTo m (encs vs 0))
        (by simp only [total_padTo, padTo_flatten]) (wf.padTo m) (by rw [total_padTo]; exact hsm)
        (by intro i hi _; simp at hi; simp [hi])
      have hmem' : mem.drop (base + total (encs vs 0)) = encItems items (j + 1) ++ extra := by
        rw [← List.drop_drop, hmem, hassoc, List.append_assoc]; exact List.drop_left' hitem
      obtain ⟨cs, e1, e2⟩ := ih extra (base + total (encs vs 0)) (j + 1) fuel hc.2.2 (by omega)
        (by rw [encItems_length]; omega) hmem'
      rw [hp, e1]
      refine ⟨_, rfl, ?_⟩
      simp only [ItemViews]
      refine ⟨trivial, ?_, ?_⟩
      · rw [hmem, hassoc]; simp [List.append_assoc]
      · rw [hitem]; exact e2

/-- The list of a field, as `NewStructs` takes it. -/
theorem list_views {r : Nat} {s : St} {fs : List Bytes} (h : Rep r s fs) {i : Nat} (m : Nat)
    (items : List (List Val)) (hi : i < s.idx.length)
    (hb : blob fs i = (Val.structs items).enc i) (hc : ItemsCanon items) (hne : items ≠ []) :
    (∃ sz, s.fieldOffset i = .ok ((offsetOf fs i, sz), { s with idx := idxOf s.idx.length fs, parsed := true })) ∧
    ∃ cs, getListStructs s i m = .ok (some cs) ∧
      ItemViews (s.seg.data ++ s.seg.spare) (offsetOf fs i + 8) 0 cs items := by
  have hlen := h.len
  obtain ⟨A, B, hd, hA⟩ := h.split (i := i) (by omega)
  have hblen : (blob fs i).length = 8 + itemSizes items := by rw [hb, enc_length, Val.size]
  have hpos : 8 ≤ itemSizes items := by
    cases items with
    | nil => exact absurd rfl hne
    | cons vs items => simp only [itemSizes]; omega
  have hsm : 8 + itemSizes items < 2 ^ 32 := by
    have := offsetOf_le_total fs i; have := h.small; omega
  have hne : blob fs i ≠ [] := by intro e; rw [e] at hblen; simp at hblen; omega
  refine ⟨⟨(blob fs i).length, by rw [h.fieldOffset, if_pos hi]; simp [entryOf, hne]⟩, ?_⟩
  simp only [getListStructs, h.fieldOffset, Res.ok_bind, hi, if_true, entryOf, hne, if_false]
  rw [if_neg (by intro e; exact hne (List.length_eq_zero_iff.mp e)), if_pos (by simp [HeaderSize]; omega)]
  have h1 := Seg.sub_eq s.seg A (blob fs i) B hd (A.length + (blob fs i).length) rfl
  rw [hA] at h1
  rw [h1]
  have hdrop : (blob fs i).drop HeaderSize = encItems items 0 := by
    rw [hb, Val.enc]; exact List.drop_left' (by simp [HeaderSize])
  simp only [Res.ok_bind, hdrop]
  obtain ⟨cs, e1, e2⟩ := parse_views (s.seg.data ++ s.seg.spare) m items
    ((s.seg.data ++ s.seg.spare).drop (offsetOf fs i + (blob fs i).length)) (offsetOf fs i + 8) 0 (blob fs i).length hc
    (by omega) (by rw [encItems_length]; omega) (by
      have hx : s.seg.data ++ s.seg.spare = (A ++ hdr i FTListStructs (8 + (encItems items 0).length)) ++
          (encItems items 0 ++ (B ++ s.seg.spare)) := by
        rw [hd, hb, Val.enc]; simp [List.append_assoc]
      have hy : s.seg.data ++ s.seg.spare = (A ++ blob fs i) ++ (B ++ s.seg.spare) := by
        rw [hd]; simp [List.append_assoc]
      have e1 : (s.seg.data ++ s.seg.spare).drop (offsetOf fs i + (blob fs i).length) = B ++ s.seg.spare := by
        rw [hy]; exact List.drop_left' (by rw [List.length_append, hA])
      rw [e1, hx]
      exact List.drop_left' (by rw [List.length_append, hA, hdr_length]))
  exact ⟨cs, by rw [e1]; rfl, e2⟩

/-- The views of a list in the pool. -/
theorem views_get (mem : Bytes) : ∀ (cs : List St) (items : List (List Val)) (base j : Nat), ItemViews mem base j cs items →
    (SSt.places base cs).length = items.length ∧ cs.length = items.length ∧
    ∀ (q : Nat) (c : St × Option Nat), (SSt.places base cs)[q]? = some c → ∃ off r, c.2 = some off ∧ q < items.length ∧
      r = (j + q) % 65536 ∧
      c.1.seg.data = hdr r FTStruct (total (encs (items.getD q []) 0)) ++ (encs (items.getD q []) 0).flatten ∧
      c.1.seg.data ++ c.1.seg.spare = mem.drop off := by
  intro cs
  induction cs with
  | nil =>
    intro items base j h
    cases items <;> simp [ItemViews] at h
    exact ⟨rfl, rfl, by simp [SSt.places]⟩
  | cons c cs ih =>
    intro items base j h
    cases items with
    | nil => simp [ItemViews] at h
    | cons vs items =>
      obtain ⟨h1, h2, h3⟩ := h
      obtain ⟨k1, k0, k2⟩ := ih items _ _ h3
      refine ⟨by simp [SSt.places, k1], by simp [k0], fun q d hq => ?_⟩
      cases q with
      | zero =>
        simp only [SSt.places, List.getElem?_cons_zero, Option.some.injEq] at hq
        subst hq
        exact ⟨base, _, rfl, by simp, rfl, by simpa using h1, h2⟩
      | succ q =>
        simp only [SSt.places, List.getElem?_cons_succ] at hq
        obtain ⟨off, r, a1, a2, a3, a4, a5⟩ := k2 q d hq
        exact ⟨off, r, a1, by simp; omega, by rw [a3]; congr 1; omega, by simpa using a4, a5⟩

/-- Writing to a view what it has. -/
theorem overwrite_same (p : St) (off : Nat) : p.overwrite off ((p.seg.data ++ p.seg.spare).drop off) = p := by
  simp only [St.overwrite, List.take_append_drop]
  rw [List.take_left' rfl, List.drop_left' rfl]

/-- The pool of a program: structs it made, then the views of a list, which hold `olds`. -/
structure MixOk (L : SSt) (P V : List (St × Option Nat)) (recs olds : List (List Val)) : Prop where
  eq : L.pool = P ++ V
  made : PoolOk P recs
  len : V.length = olds.length
  views : ∀ (q : Nat) (c : St × Option Nat), V[q]? = some c → ∃ off, c.2 = some off ∧
    c.1.seg.data = hdr (q % 65536) FTStruct (total (encs (olds.getD q []) 0)) ++ (encs (olds.getD q []) 0).flatten ∧
    c.1.seg.data ++ c.1.seg.spare = (L.st.seg.data ++ L.st.seg.spare).drop off

theorem MixOk.look {L : SSt} {P V recs olds} (h : MixOk L P V recs olds) : L.pool.map (SSt.look L.st) = L.pool := by
  refine (List.map_congr_left fun c hc => ?_).trans (List.map_id _)
  rw [h.eq, List.mem_append] at hc
  obtain ⟨d, o⟩ := c
  rcases hc with hc | hc
  · obtain ⟨i, hi⟩ := List.getElem?_of_mem hc
    have := (h.made.each i _ hi).1
    simp only at this
    subst this
    rfl
  · obtain ⟨q, hq⟩ := List.getElem?_of_mem hc
    obtain ⟨off, a1, _, a3⟩ := h.views q _ hq
    simp only at a1 a3
    subst a1
    simp only [SSt.look, ← a3, id]
    rw [List.take_left' rfl, List.drop_left' rfl]

/-- Copying items, the views of the list being at their own indexes. -/
theorem copies_mix {recs olds : List (List Val)} {V : List (St × Option Nat)} : ∀ (is : List Nat) (L : SSt)
    (P : List (St × Option Nat)) (j : Nat), MixOk L P V recs olds →
    (∀ q i, is[q]? = some i → i < recs.length ∨ (i = recs.length + (j + q) ∧ j + q < olds.length)) →
    ∃ ds P', L.copies j is = .ok (ds, { L with pool := P' ++ V }) ∧ MixOk { L with pool := P' ++ V } P' V recs olds ∧
      ItemSegs ds (is.map fun i => (recs ++ olds).getD i []) := by
  intro is
  induction is with
  | nil =>
    intro L P j h _
    refine ⟨[], P, ?_, ⟨rfl, h.made, h.len, h.views⟩, by simp [ItemSegs]⟩
    simp only [SSt.copies]
    rw [← h.eq]
  | cons i is ih =>
    intro L P j h hi
    have htail : ∀ q i, is[q]? = some i → i < recs.length ∨ (i = recs.length + (j + 1 + q) ∧ j + 1 + q < olds.length) := by
      intro q i' hq
      have := hi (q + 1) i' (by simpa using hq)
      rcases this with h | ⟨h1, h2⟩
      · exact Or.inl h
      · exact Or.inr ⟨by omega, by omega⟩
    rcases hi 0 i (by simp) with hlt | ⟨hieq, hjlt⟩
    · have hlp : i < P.length := by rw [h.made.len]; exact hlt
      obtain ⟨c, hc⟩ : ∃ c, P[i]? = some c := ⟨_, List.getElem?_eq_getElem hlp⟩
      have hc' : L.pool[i]? = some c := by rw [h.eq, List.getElem?_append_left hlp]; exact hc
      obtain ⟨k1, ⟨r, k2⟩, k3, k4, k5⟩ := h.made.each i c hc
      have hst := k2.stamp (j := j % 65536)
      have hset : recs.set i (recs.getD i []) = recs := by
        apply List.ext_getElem?
        intro q
        rw [List.getElem?_set]
        by_cases hq : i = q
        · subst hq; simp [hlt, List.getD_eq_getElem?_getD]
        · simp [hq]
      have hp := h.made.set (i := i) hst k3 k4 k5
      rw [hset] at hp
      obtain ⟨ds, P', e1, e2, e3⟩ := ih { L with pool := P.set i (_, none) ++ V } _ (j + 1) ⟨rfl, hp, h.len, h.views⟩ htail
      refine ⟨encodeHeaderFieldNum c.1.seg.data (j % 65536) :: ds, P', ?_, e2, ?_⟩
      · simp only [SSt.copies, hc', SSt.item, k1]
        rw [h.eq, List.set_append_left _ _ hlp, e1]
        rfl
      · simp only [List.map_cons, ItemSegs]
        refine ⟨⟨j % 65536 % 65536, ?_⟩, e3⟩
        have : (recs ++ olds).getD i [] = recs.getD i [] := by
          simp [List.getD_eq_getElem?_getD, List.getElem?_append_left hlt]
        rw [this, k2.data, encodeHeaderFieldNum_hdr]
    · rw [Nat.add_zero] at hieq hjlt
      have hlp : j < V.length := by rw [h.len]; exact hjlt
      obtain ⟨c, hc⟩ : ∃ c, V[j]? = some c := ⟨_, List.getElem?_eq_getElem hlp⟩
      have hc' : L.pool[i]? = some c := by
        rw [h.eq, List.getElem?_append_right (by rw [h.made.len]; omega)]
        rw [show i - P.length = j by rw [h.made.len]; omega]; exact hc
      obtain ⟨off, a1, a2, a3⟩ := h.views j c hc
      have hd : encodeHeaderFieldNum c.1.seg.data (j % 65536) = c.1.seg.data := by
        rw [a2, encodeHeaderFieldNum_hdr, Nat.mod_mod]
      have hitem : L.item i c c.1 = L := by
        simp only [SSt.item, a1]
        rw [if_pos trivial, a3, overwrite_same]
        have hs : L.pool.set i (c.1, some off) = L.pool := by
          apply List.ext_getElem?
          intro q
          rw [List.getElem?_set]
          by_cases hq : i = q
          · subst hq
            have hll := (List.getElem?_eq_some_iff.1 hc').1
            simp only [if_true, hll]
            rw [hc', ← a1]
          · simp [hq]
        rw [hs, h.look]
      obtain ⟨ds, P', e1, e2, e3⟩ := ih L P (j + 1) h htail
      refine ⟨c.1.seg.data :: ds, P', ?_, e2, ?_⟩
      · simp only [SSt.copies, hc', hd]
        rw [show ({ c.1 with seg := ⟨c.1.seg.data, c.1.seg.spare⟩ } : St) = c.1 from rfl, hitem, e1]
        rfl
      · simp only [List.map_cons, ItemSegs]
        refine ⟨⟨j % 65536, ?_⟩, e3⟩
        have : (recs ++ olds).getD i [] = olds.getD j [] := by
          rw [List.getD_eq_getElem?_getD, List.getElem?_append_right (by omega), List.getD_eq_getElem?_getD]
          rw [show i - recs.length = j by omega]
        rw [this, a2]

/-- `is` names structs that were made and, at their own indexes, the items of a decoded list, and these hold `new`. -/
def Selects (recs olds : List (List Val)) (is : List Nat) (new : List (List Val)) : Prop :=
  (∀ q i, is[q]? = some i → i < recs.length ∨ (i = recs.length + (0 + q) ∧ 0 + q < olds.length)) ∧
  is.map (fun i => (recs ++ olds).getD i []) = new

theorem own_get' (n P q : Nat) : ((List.range n).map (· + P))[q]? = if q < n then some (q + P) else none := by
  rw [List.getElem?_map]
  by_cases h : q < n
  · rw [List.getElem?_eq_getElem (by simpa using h)]; simp [h]
  · rw [List.getElem?_eq_none (by simpa using h)]; simp [h]

theorem own_selects (recs olds : List (List Val)) :
    Selects recs olds ((List.range olds.length).map (· + recs.length)) olds := by
  refine ⟨fun q i h => ?_, ?_⟩
  · rw [own_get'] at h
    split at h
    · simp at h; exact Or.inr ⟨by omega, by omega⟩
    · simp at h
  · apply List.ext_getElem?
    intro q
    rw [List.getElem?_map, own_get']
    by_cases h : q < olds.length
    · simp only [h, if_true, Option.map_some]
      rw [List.getD_eq_getElem?_getD, List.getElem?_append_right (by omega), Nat.add_sub_cancel,
        List.getElem?_eq_getElem h]
      rfl
    · simp only [h, if_false, Option.map_none]
      rw [List.getElem?_eq_none (by omega)]

theorem made_selects (recs olds : List (List Val)) (ids : List Nat) (h : ∀ i ∈ ids, i < recs.length) :
    ids.map (fun i => (recs ++ olds).getD i []) = ids.map fun i => recs.getD i [] := by
  refine List.map_congr_left fun i hi => ?_
  simp only [List.getD_eq_getElem?_getD]
  rw [List.getElem?_append_left (h i hi)]

/-- The calls on a list name such structs. -/
theorem replaces_selects {A : SAbs} {fn : Nat} {olds : List (List Val)} {op : SOp} {new : List (List Val)}
    (h : A.Replaces fn olds op new) : ∃ (k : Nat) (g : List Nat → Option (List Nat)) (is : List Nat),
      (∀ L, op.run L = SSt.edit L fn k g) ∧ g ((List.range olds.length).map (· + A.recs.length)) = some is ∧
      Selects A.recs olds is new := by
  have own := own_selects A.recs olds
  cases h with
  | append k ids hi =>
    refine ⟨k, fun is => some (is ++ ids), _, fun _ => rfl, rfl, fun q i h => ?_, ?_⟩
    · rw [List.getElem?_append] at h
      split at h
      · exact own.1 q i h
      · exact Or.inl (hi i (List.mem_of_getElem? h))
    · rw [List.map_append, own.2, made_selects _ _ _ hi]; rfl
  | put k j id hj hid =>
    refine ⟨k, fun is => if j < is.length then some (is.set j id) else none, _, fun _ => rfl,
      if_pos (by simpa using hj), fun q i h => ?_, ?_⟩
    · rw [List.getElem?_set] at h
      split at h
      · split at h
        · simp at h; subst h; exact Or.inl hid
        · simp at h
      · exact own.1 q i h
    · rw [List.map_set, own.2]
      congr 1
      simp only [SAbs.record, List.getD_eq_getElem?_getD]
      rw [List.getElem?_append_left hid]
  | setAll k ids hi =>
    exact ⟨k, fun _ => some ids, _, fun _ => rfl, rfl, fun q i h => Or.inl (hi i (List.mem_of_getElem? h)), made_selects _ _ _ hi⟩

theorem itemsCanon_iff : ∀ items : List (List Val), ItemsCanon items ↔ ∀ vs ∈ items, vs.length ≤ 65536 ∧ Canons vs
  | [] => by simp [ItemsCanon]
  | vs :: items => by simp only [ItemsCanon, itemsCanon_iff items, List.forall_mem_cons, and_assoc]

/-- A call on a list that was decoded, and `Marshal`. -/
theorem decoded_edit {isL : Nat → Bool} {L : SSt} {A : SAbs} (h : SInv isL L A)
    (hq : ∀ fn s, A.shown fn = some s → s.live = false) {fn : Nat} (hfn : fn < A.fields.length) (hno : isL fn = false)
    {olds : List (List Val)} (hv : A.fields.getD fn .absent = .structs olds) {op : SOp} {new : List (List Val)}
    (hop : A.Replaces fn olds op new) (hs : 8 + sizes (A.fields.set fn (specStructs new)) < 2 ^ 32) :
    ∃ L1 L2, op.run L = .ok L1 ∧
      L1.marshal = .ok (hdr 0 FTStruct (total (encs (A.fields.set fn (specStructs new)) 0)) ++
        (encs (A.fields.set fn (specStructs new)) 0).flatten, L2) ∧
      Canons (A.fields.set fn (specStructs new)) := by
  obtain ⟨k, g, is, g1, g2, g3⟩ := replaces_selects hop
  have hnone : L.lists fn = none := by
    rcases h.lists fn with h1 | ⟨h0, _⟩
    · exact h1.1
    · rw [hno] at h0; simp at h0
  have hpend : L.pending = [] := by
    rw [List.eq_nil_iff_forall_not_mem]
    intro i hi
    rcases h.lists i with ⟨_, _, h3, _⟩ | ⟨_, o, s, k⟩
    · exact h3 hi
    · have := k.live.2 hi
      rw [hq i s k.abs] at this; simp at this
  have hcan := h.canon.get fn
  rw [hv] at hcan
  have hoc : ItemsCanon olds ∧ olds ≠ [] := by
    exact ⟨hcan.2, hcan.1⟩
  have hblob : blob (encs A.fields 0) fn = (Val.structs olds).enc fn := by rw [blob_encs, hv, Nat.zero_add]
  obtain ⟨⟨sz, q1⟩, _⟩ := list_views h.rep k olds (by rw [h.len]; exact hfn) hblob hoc.1 hoc.2
  generalize hst : ({ L.st with idx := idxOf L.st.idx.length (encs A.fields 0), parsed := true } : St) = st at q1
  have hrep : Rep 0 st (encs A.fields 0) := by rw [← hst]; exact h.rep.parsed
  have hlen : st.idx.length = A.fields.length := by rw [← hst]; simpa using h.len
  have hen : st.isSetEnabled = false := by rw [← hst]; exact h.cfg
  obtain ⟨_, cs, q2, q3⟩ := list_views hrep k olds (by rw [hlen]; exact hfn) hblob hoc.1 hoc.2
  obtain ⟨v1, v0, v2⟩ := views_get _ cs olds _ _ q3
  have hpl := h.pool.len
  -- the call
  have hrun : op.run L = .ok { L with
      st := st
      pool := L.pool ++ SSt.places (offsetOf (encs A.fields 0) fn + 8) cs
      lists := fun i => if i = fn then some ⟨is, true⟩ else L.lists i
      pending := [fn] } := by
    rw [g1]
    simp only [SSt.edit, SSt.access, hnone, q1, q2, Res.ok_bind, Res.pure_eq, Option.getD_some, v0, hpl, g2, hpend,
      List.nil_append, HeaderSize]
    congr 2
    funext i
    by_cases hi : i = fn <;> simp [hi]
  generalize hL1 : ({ L with
      st := st
      pool := L.pool ++ SSt.places (offsetOf (encs A.fields 0) fn + 8) cs
      lists := fun i => if i = fn then some ⟨is, true⟩ else L.lists i
      pending := [fn] } : SSt) = L1 at hrun
  have hmix : MixOk L1 L.pool (SSt.places (offsetOf (encs A.fields 0) fn + 8) cs) A.recs olds := by
    rw [← hL1]
    refine ⟨rfl, h.pool, v1, fun q c hc => ?_⟩
    obtain ⟨off, r, a1, _, a3, a4, a5⟩ := v2 q c hc
    rw [Nat.zero_add] at a3
    subst a3
    exact ⟨off, a1, a4, a5⟩
  obtain ⟨ds, P', e1, e2, e3⟩ := copies_mix is L1 _ 0 hmix g3.1
  rw [g3.2] at e3
  have hnew : ItemsCanon new := by
    rw [itemsCanon_iff, ← g3.2]
    intro vs hvs
    rw [List.mem_map] at hvs
    obtain ⟨i, hi, rfl⟩ := hvs
    obtain ⟨q, hq⟩ := List.getElem?_of_mem hi
    rcases g3.1 q i hq with hlt | ⟨rfl, hlt⟩
    · rw [List.getD_eq_getElem?_getD, List.getElem?_append_left hlt, ← List.getD_eq_getElem?_getD]
      obtain ⟨_, _, _, k4, k5⟩ := h.pool.each i _ (List.getElem?_eq_getElem (by rw [hpl]; exact hlt))
      exact ⟨k4, k5⟩
    · rw [List.getD_eq_getElem?_getD, List.getElem?_append_right (by omega), Nat.add_sub_cancel_left,
        List.getElem?_eq_getElem hlt]
      exact (itemsCanon_iff olds).1 hoc.1 _ (List.getElem_mem hlt)
  have hsz : 8 + itemSizes new < 2 ^ 40 := by
    cases hp : new with
    | nil => simp [itemSizes]
    | cons vs' items' =>
      have := sizes_ge (A.fields.set fn (specStructs new)) fn
      rw [getD_set_at hfn] at this
      simp only [specStructs, hp, List.isEmpty_cons, Bool.false_eq_true, if_false, Val.size] at this
      simp only [specStructs, hp, List.isEmpty_cons, Bool.false_eq_true, if_false] at hs
      omega
  obtain ⟨p1, p2, p3⟩ := store_pre (s := st) (vs := A.fields) (by omega) h.max fn (by omega)
    (specStructs new) (canon_specStructs _ hnew).stored hs
    (hdr fn FTListStructs (8 + (encItems new 0).length) ++ encItems new 0)
    (by intro hz; rw [isAbsent_specStructs] at hz; simp [specStructs, hz, Val.enc])
  obtain ⟨st', r1, r2, r3, _⟩ := storePlain_rep hrep fn (by omega) (specStructs new).isAbsent _ p1 p2
  rw [p3] at r2
  have hz : (is.length == 0) = (specStructs new).isAbsent := by
    rw [isAbsent_specStructs, ← g3.2]; cases is <;> simp
  have hst1 : L1.st = st := by rw [← hL1]
  have hl1 : L1.lists fn = some ⟨is, true⟩ := by rw [← hL1]; simp
  have hp1 : L1.pending = [fn] := by rw [← hL1]
  have hpar : ∀ (X : SSt) (p : St), (X.parent p).st = p := by intro X p; unfold SSt.parent; split <;> rfl
  refine ⟨L1, ?_⟩
  simp only [SSt.marshal, hp1, SSt.syncAll, SSt.sync, hl1, if_true, e1, Res.ok_bind, syncList,
    structsBlob_eq fn ds new e3 hsz, Res.ofOption_some, hz, hst1, r1, Res.pure_eq, hpar,
    marshal_rep r2 (r3.enabled.trans hen)]
  exact ⟨_, hrun, rfl, h.canon.set _ _ (canon_specStructs _ hnew)⟩

end Claw
