import Verif.Lemmas.ApplyEdit

/-!
# Lists of structs in a patch
-/

namespace Claw

set_option linter.unusedSimpArgs false

/-- The bytes of a struct with the record `vs`. -/
def SegOf (d : Bytes) (vs : List Val) : Prop := ∃ r, r < 2 ^ 16 ∧ d = hdr r FTStruct (total (encs vs 0)) ++ (encs vs 0).flatten

theorem itemsCanon_iff (items : List (List Val)) :
    ItemsCanon items ↔ ∀ vs ∈ items, vs.length ≤ 65536 ∧ Canons vs := by
  induction items with
  | nil => simp [ItemsCanon]
  | cons vs items ih => simp [ItemsCanon, ih, and_assoc]

theorem itemsHaveTy_iff (items : List (List Val)) (tys : List Ty) :
    ItemsHaveTy items tys ↔ ∀ vs ∈ items, FieldsHaveTy vs tys := by
  induction items with
  | nil => simp [ItemsHaveTy]
  | cons vs items ih => simp [ItemsHaveTy, ih]

theorem ItemSegs.append {ds es : List Bytes} {xs ys : List (List Val)} (h : ItemSegs ds xs) (h' : ItemSegs es ys) :
    ItemSegs (ds ++ es) (xs ++ ys) := by
  induction ds generalizing xs with
  | nil => cases xs <;> simp [ItemSegs] at h; simpa using h'
  | cons d ds ih =>
    cases xs with
    | nil => simp [ItemSegs] at h
    | cons x xs => exact ⟨h.1, ih h.2⟩

theorem ItemSegs.take {ds : List Bytes} {xs : List (List Val)} (h : ItemSegs ds xs) (n : Nat) :
    ItemSegs (ds.take n) (xs.take n) := by
  induction ds generalizing xs n with
  | nil => cases xs <;> simp [ItemSegs] at h; simp [ItemSegs]
  | cons d ds ih =>
    cases xs with
    | nil => simp [ItemSegs] at h
    | cons x xs =>
      cases n with
      | zero => simp [ItemSegs]
      | succ n => exact ⟨h.1, ih h.2 n⟩

theorem ItemSegs.drop {ds : List Bytes} {xs : List (List Val)} (h : ItemSegs ds xs) (n : Nat) :
    ItemSegs (ds.drop n) (xs.drop n) := by
  induction ds generalizing xs n with
  | nil => cases xs <;> simp [ItemSegs] at h; simp [ItemSegs]
  | cons d ds ih =>
    cases xs with
    | nil => simp [ItemSegs] at h
    | cons x xs =>
      cases n with
      | zero => exact h
      | succ n => exact ih h.2 n

theorem ItemSegs.one {d : Bytes} {vs : List Val} (h : SegOf d vs) : ItemSegs [d] [vs] := by
  obtain ⟨r, _, h⟩ := h
  exact ⟨⟨r, h⟩, trivial⟩

theorem ItemSegs.set {ds : List Bytes} {xs : List (List Val)} (h : ItemSegs ds xs) (n : Nat) {d : Bytes} {vs : List Val}
    (hd : SegOf d vs) : ItemSegs (ds.set n d) (xs.set n vs) := by
  induction ds generalizing xs n with
  | nil => cases xs <;> simp [ItemSegs] at h; simp [ItemSegs]
  | cons e ds ih =>
    cases xs with
    | nil => simp [ItemSegs] at h
    | cons x xs =>
      cases n with
      | zero => obtain ⟨r, _, hd⟩ := hd; exact ⟨⟨r, hd⟩, h.2⟩
      | succ n => exact ⟨h.1, ih h.2 n⟩

theorem flatten_padTo (m : Nat) (fs : List Bytes) : (padTo m fs).flatten = fs.flatten := by
  simp [padTo]

theorem itemsRep_segs {m : Nat} {cs : List St} {items : List (List Val)} (h : ItemsRep m cs items) :
    ItemSegs (cs.map fun s => s.seg.data) items := by
  induction cs generalizing items with
  | nil => cases items <;> simp [ItemsRep] at h; simp [ItemSegs]
  | cons c cs ih =>
    cases items with
    | nil => simp [ItemsRep] at h
    | cons vs items =>
      simp only [ItemsRep] at h
      obtain ⟨⟨r, h1, _⟩, h2⟩ := h
      refine ⟨⟨r, ?_⟩, ih h2⟩
      have := h1.data
      rw [total_padTo, flatten_padTo] at this
      exact this

/-- Decoding the bytes of a struct of the same schema. -/
theorem decode_item {d : Bytes} {vs : List Val} (h : SegOf d vs) (m : Nat) (hc : Canons vs)
    (hl : vs.length ≤ 65536) (hs : 8 + sizes vs < 2 ^ 32) :
    ∃ c c', St.new m = .ok c ∧ c.unmarshal d [] = some c' ∧ c'.seg.data = d ∧ c'.idx.length = m ∧
      (∃ r, Rep r c' (padTo m (encs vs 0))) ∧ c'.isSetEnabled = false := by
  obtain ⟨r, hr, rfl⟩ := h
  obtain ⟨s', e1, e2, e3, e4⟩ := unmarshal_rep (fs := encs vs 0) (encs_wf vs hl (by omega) hc) (by rw [total_encs]; exact hs) r hr
    (⟨⟨hdr 0 FTStruct 8, zeros 56⟩, List.replicate m Entry.zero, false, false, none, false, []⟩ : St) m
    (by simp) (by intro i hi _; simp [hi]) [] []
  refine ⟨_, s', new_eq m, by simpa using e1, ?_, e3, ⟨r, e2⟩, e4⟩
  have := e2.data
  rw [total_padTo, flatten_padTo] at this
  exact this

namespace PInv
variable {tys : List Ty} {L : LSt} {r : List Val} {c : Nat → Option Val}

theorem structs_uncached (h : PInv tys L r c) {fn : Nat} {ctys : List Ty} (hty : tys[fn]? = some (.structs ctys)) :
    c fn = none := by
  rcases h.objs fn with ⟨e, _⟩ | ⟨_, _, _, _, _, _, _, e, _⟩
  · exact e
  · rw [hty] at e; simp at e

/-- The items in the struct. -/
theorem structItems (h : PInv tys L r c) {fn : Nat} {ctys : List Ty} (hty : tys[fn]? = some (.structs ctys)) :
    ∃ ds, structItems L fn ctys.length = .ok (if itemsIn (r.getD fn .absent) = [] then none else some ds) ∧
      ItemSegs ds (itemsIn (r.getD fn .absent)) ∧ ItemsCanon (itemsIn (r.getD fn .absent)) ∧
      ItemsHaveTy (itemsIn (r.getD fn .absent)) ctys ∧
      r.getD fn .absent = specStructs (itemsIn (r.getD fn .absent)) := by
  have hlt : fn < r.length := by rw [h.sch]; exact (List.getElem?_eq_some_iff.1 hty).1
  have ht := h.typed fn _ hty
  have hc := h.canon.get fn
  have hblob : blob (encs r 0) fn = (r.getD fn .absent).enc fn := by rw [blob_encs, Nat.zero_add]
  cases hr : r.getD fn .absent with
  | absent =>
    rw [hr] at hblob
    refine ⟨[], ?_, trivial, trivial, trivial, by simp [itemsIn, specStructs]⟩
    simp only [Claw.structItems, getListStructs_absent h.rep fn _ (.inr (by rw [hblob]; simp [Val.enc])), Res.ok_bind]
    rfl
  | scalar t v => rw [hr] at ht; simp [Val.HasTy] at ht
  | struct _ => rw [hr] at ht; simp [Val.HasTy] at ht
  | structs items =>
    rw [hr] at hblob hc ht
    simp only [Val.Canon] at hc
    simp only [Val.HasTy] at ht
    obtain ⟨cs, e1, e2⟩ := getListStructs_present h.rep ctys.length items (by rw [h.len]; exact hlt) hblob hc.2 hc.1
    refine ⟨cs.map fun s => s.seg.data, ?_, itemsRep_segs e2, hc.2, ht, ?_⟩
    · simp [Claw.structItems, e1, itemsIn, hc.1]
    · cases items with
      | nil => exact absurd rfl hc.1
      | cons => simp [itemsIn, specStructs]

/-- Writing a list of structs. -/
theorem storeStructs (h : PInv tys L r c) {fn : Nat} {ctys : List Ty} (hty : tys[fn]? = some (.structs ctys))
    {ds : List Bytes} {items : List (List Val)} (hd : ItemSegs ds items) (hc : ItemsCanon items)
    (ht : ItemsHaveTy items ctys) (hs : 8 + sizes (r.set fn (specStructs items)) < 2 ^ 32) :
    ∃ L', storeStructs L fn ds = .ok L' ∧ PInv tys L' (r.set fn (specStructs items)) c ∧ L'.heap = L.heap ∧
      L'.dirtyLists = L.dirtyLists := by
  have hlt : fn < r.length := by rw [h.sch]; exact (List.getElem?_eq_some_iff.1 hty).1
  have hsz : 8 + itemSizes items < 2 ^ 40 := by
    cases hp : items with
    | nil => simp [itemSizes]
    | cons vs' items' =>
      have := sizes_ge (r.set fn (specStructs items)) fn
      rw [getD_set_self hlt] at this
      simp only [specStructs, hp, List.isEmpty_cons, Bool.false_eq_true, if_false, Val.size] at this
      simp only [specStructs, hp, List.isEmpty_cons, Bool.false_eq_true, if_false] at hs
      omega
  obtain ⟨p1, p2, p3⟩ := store_pre (s := L.st) (vs := r) (by rw [h.len]; omega) h.max fn (by rw [h.len]; exact hlt)
    (specStructs items) (canon_specStructs _ hc).stored hs
    (hdr fn FTListStructs (8 + (encItems items 0).length) ++ encItems items 0)
    (by intro hz; rw [isAbsent_specStructs] at hz; simp [specStructs, hz, Val.enc])
  obtain ⟨st, e1, e2, e3, _⟩ := storePlain_rep h.rep fn (by rw [h.len]; exact hlt) (specStructs items).isAbsent _ p1 p2
  rw [p3] at e2
  refine ⟨{ L with st := st }, ?_, ?_, rfl, rfl⟩
  · have hz : (ds.length == 0) = (specStructs items).isAbsent := by
      rw [isAbsent_specStructs, (itemSegs_sum ds _ hd).2]; cases items <;> simp
    simp only [Claw.storeStructs, syncList, structsBlob_eq fn ds items hd hsz, Res.ofOption_some, Res.ok_bind, hz, e1]
    rfl
  · refine h.setSt e2 e3 (by simp) (h.canon.set fn _ (canon_specStructs _ hc)) (h.typed_set hty ?_) ?_
    · cases items with
      | nil => simp [specStructs, Val.HasTy]
      | cons => simpa [specStructs, Val.HasTy] using ht
    · intro j k v hv
      by_cases hj : j = fn
      · subst hj; rw [h.structs_uncached hty] at hv; simp at hv
      · exact getD_set_ne hj

end PInv

end Claw
