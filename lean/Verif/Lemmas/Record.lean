import Verif.Lemmas.Codec

/-!
# Structs refine records
-/

namespace Claw

mutual
/-- Canonical encoding of a value in field `i` (proof device). -/
def Val.enc : Val → Nat → Bytes
  | .absent, _ => []
  | .scalar t v, i => scalarBlob i t v
  | .struct vs, i => hdr i FTStruct (total (encs vs 0)) ++ (encs vs 0).flatten
  | .structs items, i => hdr i FTListStructs (8 + (encItems items 0).length) ++ encItems items 0
def encs : List Val → Nat → List Bytes
  | [], _ => []
  | v :: vs, k => v.enc k :: encs vs (k + 1)
/-- The items of a struct list, numbered from `j` modulo 65536. -/
def encItems : List (List Val) → Nat → Bytes
  | [], _ => []
  | vs :: items, j =>
    hdr (j % 65536) FTStruct (total (encs vs 0)) ++ ((encs vs 0).flatten ++ encItems items (j + 1))
end

mutual
/-- No stored zero values, no stored empty structs or lists, and string lists are clean. -/
def Val.Canon : Val → Prop
  | .absent => True
  | .scalar t v => t.isZero v = false ∧ t.Clean v
  | .struct vs => vs.length ≤ 65536 ∧ vs.all Val.isAbsent = false ∧ Canons vs
  | .structs items => items ≠ [] ∧ ItemsCanon items
def Canons : List Val → Prop
  | [] => True
  | v :: vs => v.Canon ∧ Canons vs
def ItemsCanon : List (List Val) → Prop
  | [] => True
  | vs :: items => vs.length ≤ 65536 ∧ Canons vs ∧ ItemsCanon items
end

@[simp] theorem encs_length (vs : List Val) : ∀ k, (encs vs k).length = vs.length := by
  induction vs with
  | nil => intro k; simp [encs]
  | cons v vs ih => intro k; simp [encs, ih]

mutual
theorem enc_length (v : Val) (i : Nat) : (v.enc i).length = v.size := by
  cases v with
  | absent => simp [Val.enc, Val.size]
  | scalar t v => simp [Val.enc, Val.size, scalarBlob_length]
  | struct vs => simp [Val.enc, Val.size, encs_flatten_length vs 0]
  | structs items => simp [Val.enc, Val.size, encItems_length items 0]
theorem encs_flatten_length (vs : List Val) (k : Nat) : (encs vs k).flatten.length = sizes vs := by
  cases vs with
  | nil => simp [encs, sizes]
  | cons v vs =>
    rw [encs, sizes, List.flatten_cons, List.length_append, enc_length v k,
      encs_flatten_length vs (k + 1)]
theorem encItems_length (items : List (List Val)) (j : Nat) : (encItems items j).length = itemSizes items := by
  cases items with
  | nil => simp [encItems, itemSizes]
  | cons vs items =>
    rw [encItems, itemSizes, List.length_append, List.length_append, hdr_length,
      encs_flatten_length vs 0, encItems_length items (j + 1)]
    omega
end

theorem total_encs (vs : List Val) (k : Nat) : total (encs vs k) = 8 + sizes vs := by
  rw [total, encs_flatten_length]

theorem blob_encs (vs : List Val) : ∀ (k i : Nat),
    blob (encs vs k) i = (vs.getD i .absent).enc (k + i) := by
  induction vs with
  | nil => intro k i; simp [encs, blob, Val.enc]
  | cons v vs ih =>
    intro k i
    cases i with
    | zero => simp [encs, blob]
    | succ i =>
      have := ih (k + 1) i
      simp only [blob, encs, List.getD_cons_succ] at this ⊢
      rw [this]; congr 1; omega

theorem encs_set (vs : List Val) : ∀ (k n : Nat) (v : Val),
    (encs vs k).set n (v.enc (k + n)) = encs (vs.set n v) k := by
  induction vs with
  | nil => intro k n v; simp [encs]
  | cons w vs ih =>
    intro k n v
    cases n with
    | zero => simp [encs]
    | succ n =>
      have := ih (k + 1) n v
      simp only [encs, List.set_cons_succ]
      rw [← this]; congr 2; congr 1; omega

theorem scalarSize_pos (t : STy) (v : t.Val) : 8 ≤ scalarSize t v := by
  cases t
  case any => cases v <;> simp [scalarSize]; omega
  all_goals simp [scalarSize]

theorem size_pos {v : Val} (h : v.isAbsent = false) : 8 ≤ v.size := by
  cases v with
  | absent => simp [Val.isAbsent] at h
  | scalar t v => simpa [Val.size] using scalarSize_pos t v
  | struct vs => simp [Val.size]
  | structs items => simp [Val.size]

theorem enc_ne_nil {v : Val} (h : v.isAbsent = false) (i : Nat) : v.enc i ≠ [] := by
  intro e
  have := enc_length v i
  have := size_pos h
  rw [e] at *; simp at *; omega

theorem sizes_ge (vs : List Val) (i : Nat) : (vs.getD i .absent).size ≤ sizes vs := by
  induction vs generalizing i with
  | nil => simp [Val.size]
  | cons v vs ih =>
    cases i with
    | zero => simp [sizes]
    | succ i => have := ih i; simp only [List.getD_cons_succ, sizes]; omega

theorem sizes_eq_zero (vs : List Val) : sizes vs = 0 ↔ vs.all Val.isAbsent = true := by
  induction vs with
  | nil => simp [sizes]
  | cons v vs ih =>
    simp only [sizes, List.all_cons, Bool.and_eq_true, ← ih]
    cases hv : v.isAbsent with
    | false => have := size_pos hv; simp; omega
    | true =>
      cases v <;> simp [Val.isAbsent] at hv
      simp [Val.size]

theorem Canons.get {vs : List Val} (h : Canons vs) (i : Nat) : (vs.getD i .absent).Canon := by
  induction vs generalizing i with
  | nil => simp [Val.Canon]
  | cons v vs ih =>
    cases i with
    | zero => simpa using h.1
    | succ i => simpa using ih h.2 i

theorem Canons.set {vs : List Val} (h : Canons vs) (i : Nat) (v : Val) (hv : v.Canon) :
    Canons (vs.set i v) := by
  induction vs generalizing i with
  | nil => simpa using h
  | cons w vs ih =>
    cases i with
    | zero => exact ⟨hv, h.2⟩
    | succ i => exact ⟨h.1, ih h.2 i⟩

theorem canons_replicate (m : Nat) : Canons (List.replicate m .absent) := by
  induction m with
  | zero => simp [Canons]
  | succ m ih => simp only [List.replicate_succ]; exact ⟨trivial, ih⟩

theorem encs_replicate (m : Nat) : ∀ k, encs (List.replicate m .absent) k = List.replicate m [] := by
  induction m with
  | zero => intro k; simp [encs]
  | succ m ih => intro k; simp [List.replicate_succ, encs, Val.enc, ih]

/-- Scalars in the record are storable and not zero. -/
def Val.Stored : Val → Prop
  | .scalar t v => t.Storable v ∧ t.isZero v = false
  | _ => True

theorem Val.Canon.stored {v : Val} (h : v.Canon) : v.Stored := by
  cases v <;> simp only [Val.Stored]
  case scalar t v => exact ⟨h.2.storable, h.1⟩

theorem specScalar_stored {t : STy} {v : t.Val} (h : t.Storable v) : (specScalar t v).Stored := by
  simp only [specScalar]; cases hz : t.isZero v <;> simp [Val.Stored, h, hz]

theorem enc_wf {v : Val} (i : Nat) (hi : i < 2 ^ 16) (hs : v.size < 2 ^ 32) (hst : v.Stored) :
    v.enc i = [] ∨ WFBlob i (v.enc i) := by
  cases v with
  | absent => left; simp [Val.enc]
  | scalar t v => right; exact scalarBlob_wf i hi t v hs hst.1 hst.2
  | struct vs =>
    right
    rw [Val.enc]
    refine structBlob_wf i hi _ ?_
    rw [total_encs]; simpa [Val.size] using hs
  | structs items =>
    right
    simp only [Val.size] at hs
    rw [Val.enc, encItems_length]
    refine ⟨by simp, FTListStructs, 8 + itemSizes items, by decide, ?_, ?_⟩
    · intro rest
      rw [List.append_assoc]
      exact decodeHeader_hdr hi (by decide) (by omega) _
    · intro rest
      simp +decide [fieldSizeAt, encItems_length]

theorem encs_wf (vs : List Val) (hl : vs.length ≤ 65536) (hs : sizes vs < 2 ^ 32) (hc : Canons vs) :
    WFs (encs vs 0) := by
  intro i
  rw [blob_encs, Nat.zero_add]
  by_cases hi : i < 65536
  · exact enc_wf i hi (by have := sizes_ge vs i; omega) (hc.get i).stored
  · left
    rw [List.getD_eq_getElem?_getD, List.getElem?_eq_none (by omega)]
    simp [Val.enc]

theorem new_eq (m : Nat) : St.new m = .ok ⟨⟨hdr 0 FTStruct 8, zeros 56⟩,
    List.replicate m Entry.zero, false, false, none, false, []⟩ := by
  simp only [St.new, Seg.new]
  rw [encodeHeaderAt_eq (by simp [zeros]) 0 FTStruct (by omega)]
  simp [zeros]

theorem new_rep (m : Nat) : ∃ s, St.new m = .ok s ∧
    Rep 0 s (encs (List.replicate m .absent) 0) ∧ s.idx.length = m ∧ s.isSetEnabled = false ∧
    s.recording = false ∧ s.isSetBits = none ∧ s.ops = [] := by
  refine ⟨_, new_eq m, ?_, by simp, rfl, rfl, rfl, rfl⟩
  rw [encs_replicate]
  have hblob : ∀ i, blob (List.replicate m []) i = [] := by
    intro i; simp only [blob, List.getD_eq_getElem?_getD, List.getElem?_replicate]; split <;> rfl
  refine ⟨by simp [total], by simp, fun i => Or.inl (hblob i), by simp [total], by simp, ?_⟩
  intro _ i hi _
  simp at hi; simp [hi]

/-- What a store of `v` at `n` needs to know about the encoding. -/
theorem store_pre {s : St} {vs : List Val}
    (hl : s.idx.length ≤ vs.length) (hm : vs.length ≤ 65536) (n : Nat) (hn' : n < s.idx.length)
    (v : Val) (hst : v.Stored) (hs : 8 + sizes (vs.set n v) < 2 ^ 32) (b : Bytes)
    (hb : v.isAbsent = false → b = v.enc n) :
    (v.isAbsent = false → WFBlob n b) ∧ (v.isAbsent = false → total ((encs vs 0).set n b) < 2 ^ 32) ∧
    (encs vs 0).set n (if v.isAbsent then [] else b) = encs (vs.set n v) 0 := by
  have hn : n < vs.length := by omega
  have hget : (vs.set n v).getD n .absent = v := by
    simp [List.getD_eq_getElem?_getD, hn]
  have hsz := sizes_ge (vs.set n v) n
  rw [hget] at hsz
  have hset : ∀ w, w = v.enc n → (encs vs 0).set n w = encs (vs.set n v) 0 := by
    intro w hw; subst hw; rw [← encs_set, Nat.zero_add]
  refine ⟨?_, ?_, ?_⟩
  · intro hz
    rw [hb hz]
    rcases enc_wf (v := v) n (by omega) (by omega) hst with h' | h'
    · exact absurd h' (enc_ne_nil hz n)
    · exact h'
  · intro hz; rw [hset b (hb hz), total_encs]; exact hs
  · cases hz : v.isAbsent with
    | true =>
      have : [] = v.enc n := by cases v <;> simp [Val.isAbsent] at hz; simp [Val.enc]
      simpa using hset [] this
    | false => simpa using hset b (hb hz)

/-- Store a value whose encoding is known. -/
theorem store_rep {r : Nat} {s : St} {vs : List Val} (h : Rep r s (encs vs 0))
    (hl : s.idx.length ≤ vs.length) (hm : vs.length ≤ 65536) (n : Nat) (hn' : n < s.idx.length)
    (v : Val) (hst : v.Stored) (rd : Bytes) (hs : 8 + sizes (vs.set n v) < 2 ^ 32) (b : Bytes)
    (hb : v.isAbsent = false → b = v.enc n) :
    ∃ s', setOrClear s n v.isAbsent (some b) rd = .ok s' ∧
      Rep r s' (encs (vs.set n v) 0) ∧ SameCfg s s' ∧
      s'.isSetBits = (if v.isAbsent then s.isSetBits else (s.markFieldSet n).isSetBits) ∧
      s'.ops = (s.recordOp (if v.isAbsent then ⟨n, OpClear, -1, []⟩ else ⟨n, OpSet, -1, rd⟩)).ops := by
  obtain ⟨p1, p2, p3⟩ := store_pre hl hm n hn' v hst hs b hb
  obtain ⟨s', h1, h2, h3⟩ := setOrClear_rep h n (by omega) v.isAbsent b rd p1 p2
  rw [p3] at h2
  exact ⟨s', h1, h2, h3⟩

/-- Store a list whose encoding is known. -/
theorem store_list_rep {r : Nat} {s : St} {vs : List Val} (h : Rep r s (encs vs 0))
    (hl : s.idx.length ≤ vs.length) (hm : vs.length ≤ 65536) (n : Nat) (hn' : n < s.idx.length)
    (v : Val) (hst : v.Stored) (rd : Bytes) (hs : 8 + sizes (vs.set n v) < 2 ^ 32) (b : Bytes)
    (hb : v.isAbsent = false → b = v.enc n) :
    ∃ s', storeList s n v.isAbsent (some b) rd = .ok s' ∧
      Rep r s' (encs (vs.set n v) 0) ∧ SameCfg s s' ∧
      s'.isSetBits = s.isSetBits ∧
      s'.ops = (s.recordOp ⟨n, OpListReplace, -1, rd⟩).ops := by
  obtain ⟨p1, p2, p3⟩ := store_pre hl hm n hn' v hst hs b hb
  obtain ⟨s', h1, h2, h3⟩ := storeList_rep h n (by omega) v.isAbsent b rd p1 p2
  rw [p3] at h2
  exact ⟨s', h1, h2, h3⟩

/-- Store a map whose encoding is known. -/
theorem store_map_rep {r : Nat} {s : St} {vs : List Val} (h : Rep r s (encs vs 0))
    (hl : s.idx.length ≤ vs.length) (hm : vs.length ≤ 65536) (n : Nat) (hn' : n < s.idx.length)
    (v : Val) (hst : v.Stored) (hs : 8 + sizes (vs.set n v) < 2 ^ 32) (b : Bytes)
    (hb : v.isAbsent = false → b = v.enc n) :
    ∃ s', (if v.isAbsent then s.removeField n else s.insertField n b) = .ok s' ∧
      Rep r s' (encs (vs.set n v) 0) ∧ SameCfg s s' ∧ s'.isSetBits = s.isSetBits ∧ s'.ops = s.ops := by
  obtain ⟨p1, p2, p3⟩ := store_pre hl hm n hn' v hst hs b hb
  obtain ⟨s', h1, h2, h3⟩ := storePlain_rep h n (by omega) v.isAbsent b p1 p2
  rw [p3] at h2
  exact ⟨s', h1, h2, h3⟩

@[simp] theorem isAbsent_specScalar (t : STy) (v : t.Val) : (specScalar t v).isAbsent = t.isZero v := by
  simp only [specScalar]; cases h : t.isZero v <;> simp [Val.isAbsent]

@[simp] theorem isAbsent_specStruct (vs : List Val) : (specStruct vs).isAbsent = vs.all Val.isAbsent := by
  simp only [specStruct]; cases h : vs.all Val.isAbsent <;> simp [Val.isAbsent]

@[simp] theorem isAbsent_specStructs (items : List (List Val)) :
    (specStructs items).isAbsent = items.isEmpty := by
  simp only [specStructs]; cases h : items.isEmpty <;> simp [Val.isAbsent]

theorem canon_specStructs (items : List (List Val)) (h : ItemsCanon items) :
    (specStructs items).Canon := by
  cases items with
  | nil => simp [specStructs, Val.Canon]
  | cons vs items => simpa [specStructs, Val.Canon] using h

theorem canon_specScalar (t : STy) (v : t.Val) (hc : t.Clean v) : (specScalar t v).Canon := by
  simp only [specScalar]; cases h : t.isZero v <;> simp [Val.Canon, h, hc]

theorem canon_specStruct (vs : List Val) (h : Canons vs) (hl : vs.length ≤ 65536) :
    (specStruct vs).Canon := by
  simp only [specStruct]; cases h' : vs.all Val.isAbsent <;> simp [Val.Canon, h', h, hl]

theorem spec_length (op : Op) (r : List Val) : (op.spec r).length = r.length := by
  cases op <;> simp [Op.spec]

theorem specOps_length (ops : List Op) : ∀ r, (specOps ops r).length = r.length := by
  induction ops with
  | nil => intro r; simp [specOps]
  | cons op ops ih => intro r; simp [specOps, ih, spec_length]

/-- The size of a scalar that is stored. A value that would not be stored is zero. -/
theorem scalarSize_zero (t : STy) (v : t.Val) (h : t.isZero v = true) : scalarSize t v < 2 ^ 32 := by
  cases t
  case any => cases v <;> simp [STy.isZero] at h; simp [scalarSize]
  case map kt vt => simp [STy.isZero] at h; simp [scalarSize, entryBytes, h]
  all_goals simp [scalarSize]
  case lany => simp [STy.isZero] at h; simp [h]
  case bytes => simp [STy.isZero] at h; simp [h]
  case str => simp [STy.isZero] at h; simp [h]
  case lbool => simp [STy.isZero] at h; simp [h]
  case lnum => simp [STy.isZero] at h; simp [h]
  case lstr => simp [STy.isZero] at h; simp [h, itemBytes]
  case lbytes => simp [STy.isZero] at h; simp [h, itemBytes]

/-- The segments of the items of a struct list: any field number in the header. -/
def ItemSegs : List Bytes → List (List Val) → Prop
  | [], [] => True
  | d :: ds, vs :: items =>
    (∃ r, d = hdr r FTStruct (total (encs vs 0)) ++ (encs vs 0).flatten) ∧ ItemSegs ds items
  | _, _ => False

theorem encodeHeaderFieldNum_hdr (r j ft f : Nat) (body : Bytes) :
    encodeHeaderFieldNum (hdr r ft f ++ body) j = hdr (j % 65536) ft f ++ body := by
  have := goCopy_fit [] (putLE 2 r) (putLE 1 ft ++ putLE 5 f ++ body) (putLE 2 j) (by simp)
  simp only [List.nil_append, List.length_nil, List.append_assoc] at this
  simp only [encodeHeaderFieldNum, hdr, List.append_assoc, this]
  rw [← putLE_mod 2 j]

theorem itemSegs_sum : ∀ (ds : List Bytes) (items : List (List Val)), ItemSegs ds items →
    (ds.map List.length).sum = itemSizes items ∧ ds.length = items.length := by
  intro ds
  induction ds with
  | nil => intro items h; cases items <;> simp [ItemSegs] at h; simp [itemSizes]
  | cons d ds ih =>
    intro items h
    cases items with
    | nil => simp [ItemSegs] at h
    | cons vs items =>
      simp only [ItemSegs] at h
      obtain ⟨⟨r, hd⟩, h⟩ := h
      have := ih items h
      subst hd
      simp only [List.map_cons, List.sum_cons, List.length_append, hdr_length, encs_flatten_length,
        itemSizes, this.1, List.length_cons, this.2, and_true]

theorem packStructs_eq : ∀ (ds : List Bytes) (items : List (List Val)), ItemSegs ds items →
    ∀ (p : Bytes) (j : Nat), packStructs (p ++ zeros (itemSizes items)) p.length j ds
      = p ++ encItems items j := by
  intro ds
  induction ds with
  | nil =>
    intro items h p j
    cases items <;> simp [ItemSegs] at h
    simp [packStructs, encItems, itemSizes, zeros]
  | cons d ds ih =>
    intro items h p j
    cases items with
    | nil => simp [ItemSegs] at h
    | cons vs items =>
      simp only [ItemSegs] at h
      obtain ⟨⟨r, hd⟩, h⟩ := h
      subst hd
      simp only [packStructs, encodeHeaderFieldNum_hdr]
      have hz : zeros (itemSizes (vs :: items)) = zeros (8 + sizes vs) ++ zeros (itemSizes items) := by
        simp only [zeros, List.replicate_append_replicate, itemSizes]
      have hlen : (hdr (j % 65536) FTStruct (total (encs vs 0)) ++ (encs vs 0).flatten).length
          = 8 + sizes vs := by
        rw [List.length_append, hdr_length, encs_flatten_length]
      have h1 := goCopy_fit p (zeros (8 + sizes vs)) (zeros (itemSizes items))
        (hdr (j % 65536) FTStruct (total (encs vs 0)) ++ (encs vs 0).flatten) (by
          rw [hlen]; simp)
      have h2 := ih items h
        (p ++ (hdr (j % 65536) FTStruct (total (encs vs 0)) ++ (encs vs 0).flatten)) (j + 1)
      have hl2 : (p ++ (hdr (j % 65536) FTStruct (total (encs vs 0)) ++ (encs vs 0).flatten)).length
          = p.length + (hdr r FTStruct (total (encs vs 0)) ++ (encs vs 0).flatten).length := by
        rw [List.length_append, List.length_append, List.length_append, hdr_length, hdr_length]
      rw [hz, ← List.append_assoc, h1, ← hl2, h2]
      simp only [encItems, List.append_assoc]

theorem structsBlob_eq (fn : Nat) (ds : List Bytes) (items : List (List Val)) (h : ItemSegs ds items)
    (hs : 8 + itemSizes items < 2 ^ 40) :
    structsBlob fn ds = some (hdr fn FTListStructs (8 + (encItems items 0).length) ++ encItems items 0) := by
  obtain ⟨h1, _⟩ := itemSegs_sum ds items h
  simp only [structsBlob, h1, HeaderSize, encItems_length]
  rw [encodeHeaderAt_eq (by simp) fn FTListStructs hs]
  simp only
  have hz : (zeros (8 + itemSizes items)).drop 8 = zeros (itemSizes items) := by simp [zeros]
  have := packStructs_eq ds items h (hdr fn FTListStructs (8 + itemSizes items)) 0
  rw [hdr_length] at this
  rw [hz, this]

/-- Any setter of a storable value. -/
theorem set_rep {r : Nat} {s : St} {vs : List Val} (h : Rep r s (encs vs 0))
    (hl : s.idx.length ≤ vs.length) (hm : vs.length ≤ 65536) (fn : Nat) (hfn : fn < s.idx.length) (t : STy)
    (v : t.Val) (hst : t.Storable v) (hs : 8 + sizes (vs.set fn (specScalar t v)) < 2 ^ 32) :
    ∃ s', t.set s fn v = .ok s' ∧ Rep r s' (encs (vs.set fn (specScalar t v)) 0) ∧ SameCfg s s' := by
  have hsz : scalarSize t v < 2 ^ 32 := by
    cases hz : t.isZero v with
    | true => exact scalarSize_zero t v hz
    | false =>
      have := sizes_ge (vs.set fn (specScalar t v)) fn
      rw [List.getD_eq_getElem?_getD, List.getElem?_set_self (by omega)] at this
      simp only [Option.getD_some, specScalar, hz, Bool.false_eq_true, if_false, Val.size] at this
      simp only [specScalar, hz, Bool.false_eq_true, if_false] at hs
      omega
  have henc : (specScalar t v).isAbsent = false → scalarBlob fn t v = (specScalar t v).enc fn := by
    intro hz; rw [isAbsent_specScalar] at hz; simp [specScalar, hz, Val.enc]
  have hstored := specScalar_stored hst
  cases hmap : t.isMap with
  | true =>
    obtain ⟨s', h1, h2, h3, _⟩ := store_map_rep h hl hm fn hfn (specScalar t v) hstored hs
      (scalarBlob fn t v) henc
    refine ⟨s', ?_, h2, h3⟩
    rw [set_eq_map t s fn v hst hmap, ← isAbsent_specScalar]; exact h1
  | false =>
    cases hlist : t.isList with
    | false =>
      obtain ⟨s', h1, h2, h3, _⟩ := store_rep h hl hm fn hfn (specScalar t v) hstored (t.recData v) hs
        (scalarBlob fn t v) henc
      refine ⟨s', ?_, h2, h3⟩
      rw [set_eq t s fn v hsz hst hlist hmap, ← isAbsent_specScalar]; exact h1
    | true =>
      obtain ⟨s', h1, h2, h3, _⟩ := store_list_rep h hl hm fn hfn (specScalar t v) hstored (t.recData v) hs
        (scalarBlob fn t v) henc
      refine ⟨s', ?_, h2, h3⟩
      rw [set_eq_list t s fn v hsz hst hlist, ← isAbsent_specScalar]; exact h1

mutual
theorem op_rep (op : Op) {r : Nat} {s : St} {vs : List Val} (h : Rep r s (encs vs 0))
    (hl : s.idx.length ≤ vs.length) (hm : vs.length ≤ 65536) (hc : Canons vs)
    (hfit : op.Fits s.idx.length) (hs : 8 + sizes (op.spec vs) < 2 ^ 32) :
    ∃ s', op.run s = .ok s' ∧ Rep r s' (encs (op.spec vs) 0) ∧ SameCfg s s' ∧ Canons (op.spec vs) := by
  match op with
  | .set fn t v =>
    simp only [Op.Fits] at hfit
    obtain ⟨hfit, hclean⟩ := hfit
    simp only [Op.spec] at hs ⊢
    obtain ⟨s', h1, h2, h3⟩ := set_rep h hl hm fn hfit t v hclean.storable hs
    exact ⟨s', h1, h2, h3, hc.set _ _ (canon_specScalar t v hclean)⟩
  | .clear fn =>
    simp only [Op.Fits] at hfit
    obtain ⟨sp, h1, h2⟩ := removeField_rep h fn (by omega)
    simp only [Op.run, clearField, Op.spec]
    refine ⟨_, h1, ?_, ⟨by simp, rfl, rfl⟩, hc.set _ _ trivial⟩
    have := encs_set vs 0 fn .absent
    rw [← this]; simpa [Val.enc] using h2
  | .peek =>
    exact ⟨_, h.ensure, h.parsed, ⟨by simp, rfl, rfl⟩, hc⟩
  | .nestNil fn =>
    simp only [Op.Fits] at hfit
    simp only [Op.spec] at hs ⊢
    obtain ⟨s', h1, h2, h3, _⟩ := store_rep h hl hm fn hfit .absent trivial [] hs [] (by simp [Val.isAbsent])
    refine ⟨s', ?_, h2, h3, hc.set _ _ trivial⟩
    rw [← h1]; simp [Op.run, setNestedStruct, setOrClear, Val.isAbsent]
  | .nestList fn m progs =>
    simp only [Op.Fits] at hfit
    obtain ⟨hfn, hm', hf⟩ := hfit
    simp only [Op.spec] at hs ⊢
    obtain ⟨ds, hrun, hseg, hcan⟩ := items_rep m hm' progs hf
    have hsz : 8 + itemSizes (specItems m progs) < 2 ^ 40 := by
      cases hp : specItems m progs with
      | nil => simp [itemSizes]
      | cons vs' items =>
        have := sizes_ge (vs.set fn (specStructs (specItems m progs))) fn
        rw [List.getD_eq_getElem?_getD, List.getElem?_set_self (by omega)] at this
        simp only [Option.getD_some, specStructs, hp, List.isEmpty_cons, Bool.false_eq_true,
          if_false, Val.size] at this
        simp only [specStructs, hp, List.isEmpty_cons, Bool.false_eq_true, if_false] at hs
        omega
    obtain ⟨s', h1, h2, h3, _⟩ := store_list_rep h hl hm fn hfn (specStructs (specItems m progs))
      (canon_specStructs _ hcan).stored (patchStructs ds) hs (hdr fn FTListStructs (8 + (encItems (specItems m progs) 0).length) ++
        encItems (specItems m progs) 0) (by
        intro hz; rw [isAbsent_specStructs] at hz; simp [specStructs, hz, Val.enc])
    refine ⟨s', ?_, h2, h3, hc.set _ _ (canon_specStructs _ hcan)⟩
    simp only [Op.run, hrun, Res.ok_bind, setListStructs]
    rw [structsBlob_eq fn ds _ hseg hsz, ← h1, isAbsent_specStructs]
    congr 1
    rw [(itemSegs_sum ds _ hseg).2]
    cases specItems m progs <;> simp
  | .nest fn m ops =>
    simp only [Op.Fits] at hfit
    obtain ⟨hfn, hm', hf⟩ := hfit
    simp only [Op.spec] at hs ⊢
    obtain ⟨c0, hc0, hr0, hlen0, _⟩ := new_rep m
    obtain ⟨c, hcrun, hcr, hcfg, hcc⟩ := ops_rep ops hr0 (by simp [hlen0]) (by simp [hm'])
      (canons_replicate m) (by rw [hlen0]; exact hf)
    have hclen : (specOps ops (List.replicate m .absent)).length = m := by
      rw [specOps_length]; simp
    have htot := hcr.small
    obtain ⟨s', h1, h2, h3, _⟩ := store_rep h hl hm fn hfn
      (specStruct (specOps ops (List.replicate m .absent)))
      (canon_specStruct _ hcc (by omega)).stored c.seg.data hs
      (hdr fn FTStruct (8 + (encs (specOps ops (List.replicate m .absent)) 0).flatten.length)
        ++ (encs (specOps ops (List.replicate m .absent)) 0).flatten) (by
        intro hz; rw [isAbsent_specStruct] at hz; simp [specStruct, hz, Val.enc, total])
    refine ⟨s', ?_, h2, h3, hc.set _ _ (canon_specStruct _ hcc (by omega))⟩
    simp only [Op.run, hc0, Res.ok_bind, hcrun, setNestedStruct]
    rw [hcr.data, nestedBlob_eq _ _ _ _ (by simp only [total] at htot; omega), ← hcr.data]
    rw [← h1]
    congr 1
    rw [isAbsent_specStruct]
    have hdl : c.seg.data.length = 8 + sizes (specOps ops (List.replicate m .absent)) := by
      rw [hcr.data, List.length_append, encs_flatten_length, hdr_length]
    have hz := sizes_eq_zero (specOps ops (List.replicate m .absent))
    by_cases h0 : sizes (specOps ops (List.replicate m .absent)) = 0
    · rw [hz.mp h0]; simp [HeaderSize]; omega
    · have : (specOps ops (List.replicate m .absent)).all Val.isAbsent = false := by
        cases hh : (specOps ops (List.replicate m .absent)).all Val.isAbsent with
        | false => rfl
        | true => exact absurd (hz.mpr hh) h0
      rw [this]; simp [HeaderSize]; omega
theorem ops_rep (ops : List Op) {r : Nat} {s : St} {vs : List Val} (h : Rep r s (encs vs 0))
    (hl : s.idx.length ≤ vs.length) (hm : vs.length ≤ 65536) (hc : Canons vs)
    (hfit : FitsFrom s.idx.length ops vs) :
    ∃ s', runOps ops s = .ok s' ∧ Rep r s' (encs (specOps ops vs) 0) ∧ SameCfg s s' ∧
      Canons (specOps ops vs) := by
  match ops with
  | [] => exact ⟨s, by simp [runOps], by simpa [specOps] using h, SameCfg.refl s, by simpa [specOps] using hc⟩
  | op :: ops =>
    simp only [FitsFrom] at hfit
    obtain ⟨s1, e1, r1, c1, k1⟩ := op_rep op h hl hm hc hfit.1 hfit.2.1
    obtain ⟨s2, e2, r2, c2, k2⟩ := ops_rep ops r1 (by rw [spec_length, c1.len]; exact hl)
      (by rw [spec_length]; exact hm) k1 (by rw [c1.len]; exact hfit.2.2)
    refine ⟨s2, ?_, by simpa [specOps] using r2, c1.trans c2, by simpa [specOps] using k2⟩
    simp [runOps, e1, e2]
theorem items_rep (m : Nat) (hm : m ≤ 65536) (progs : List (List Op)) (hf : FitsItems m progs) :
    ∃ ds, runItems m progs = .ok ds ∧ ItemSegs ds (specItems m progs) ∧ ItemsCanon (specItems m progs) := by
  match progs with
  | [] => exact ⟨[], by simp [runItems], by simp [specItems, ItemSegs], by simp [specItems, ItemsCanon]⟩
  | p :: ps =>
    simp only [FitsItems] at hf
    obtain ⟨c0, hc0, hr0, hlen0, _⟩ := new_rep m
    obtain ⟨c, hcrun, hcr, hcfg, hcc⟩ := ops_rep p hr0 (by simp [hlen0]) (by simp [hm])
      (canons_replicate m) (by rw [hlen0]; exact hf.1)
    obtain ⟨ds, h1, h2, h3⟩ := items_rep m hm ps hf.2
    refine ⟨c.seg.data :: ds, ?_, ?_, ?_⟩
    · simp [runItems, hc0, hcrun, h1]
    · simp only [specItems, ItemSegs]; exact ⟨⟨0, hcr.data⟩, h2⟩
    · simp only [specItems, ItemsCanon]
      exact ⟨by rw [specOps_length]; simpa using hm, hcc, h3⟩
end

/-! ### Reading -/

theorem isZero_zero (t : STy) : t.isZero t.zero = true := by
  cases t <;> simp [STy.isZero, STy.zero] <;> rfl

theorem view_absent (ty : Ty) : ty.view .absent = .absent := by
  cases ty <;> simp [Ty.view]

theorem FieldsHaveTy.get {vs : List Val} : ∀ {tys : List Ty}, FieldsHaveTy vs tys →
    ∀ i (ty : Ty), tys[i]? = some ty → (vs.getD i .absent).HasTy ty := by
  induction vs with
  | nil => intro tys _ i ty _; simp [Val.HasTy]
  | cons v vs ih =>
    intro tys h i ty hi
    cases tys with
    | nil => simp at hi
    | cons ty' tys =>
      simp only [FieldsHaveTy] at h
      cases i with
      | zero => simp at hi; subst hi; simpa using h.1
      | succ i => simp at hi; simpa using ih h.2 i ty hi

theorem viewFields_eq_map (tys : List Ty) : ∀ vs,
    viewFields tys vs = tys.mapIdx (fun i ty => ty.view (vs.getD i .absent)) := by
  induction tys with
  | nil => intro vs; cases vs <;> simp [viewFields]
  | cons ty tys ih =>
    intro vs
    cases vs with
    | nil => simp [viewFields, ih, List.mapIdx_cons]
    | cons v vs => simp [viewFields, ih, List.mapIdx_cons]

/-- Views of the items of a struct list. -/
def ItemsRep (m : Nat) : List St → List (List Val) → Prop
  | [], [] => True
  | c :: cs, vs :: items =>
    (∃ r, Rep r c (padTo m (encs vs 0)) ∧ c.idx.length = m) ∧ ItemsRep m cs items
  | _, _ => False

theorem parseStructs_eq (m : Nat) (items : List (List Val)) :
    ∀ (extra : Bytes) (j fuel : Nat), ItemsCanon items → itemSizes items < 2 ^ 32 →
      (encItems items j).length ≤ fuel →
      ∃ cs, parseStructsF m extra fuel (encItems items j) = .ok cs ∧ ItemsRep m cs items := by
  induction items with
  | nil =>
    intro extra j fuel _ _ _
    refine ⟨[], ?_, by simp [ItemsRep]⟩
    cases fuel <;> simp [parseStructsF, encItems, HeaderSize]
  | cons vs items ih =>
    intro extra j fuel hc hs hf
    simp only [ItemsCanon] at hc
    simp only [itemSizes] at hs
    rw [encItems_length] at hf
    simp only [itemSizes] at hf
    cases fuel with
    | zero => omega
    | succ fuel =>
      have hsm : total (encs vs 0) < 2 ^ 32 := by rw [total_encs]; omega
      have hitem : (hdr (j % 65536) FTStruct (total (encs vs 0)) ++ (encs vs 0).flatten).length
          = total (encs vs 0) := by simp [total]
      have hassoc : encItems (vs :: items) j
          = (hdr (j % 65536) FTStruct (total (encs vs 0)) ++ (encs vs 0).flatten) ++ encItems items (j + 1) := by
        simp [encItems]
      have hdec := decodeHeader_hdr (fn := j % 65536) (by omega) (ft := FTStruct) (by decide)
        (f := total (encs vs 0)) (by omega) ((encs vs 0).flatten ++ encItems items (j + 1))
      rw [← List.append_assoc, ← hassoc] at hdec
      have hlen : (encItems (vs :: items) j).length = total (encs vs 0) + (encItems items (j + 1)).length := by
        rw [hassoc, List.length_append, hitem]
      have h8 : 8 ≤ total (encs vs 0) := by simp [total]
      have htake : (encItems (vs :: items) j).take (total (encs vs 0))
          = hdr (j % 65536) FTStruct (total (encs vs 0)) ++ (encs vs 0).flatten := by
        rw [hassoc]; exact List.take_left' hitem
      have hdrop : (encItems (vs :: items) j).drop (total (encs vs 0)) = encItems items (j + 1) := by
        rw [hassoc]; exact List.drop_left' hitem
      simp only [parseStructsF, hdec, HeaderSize, ne_eq, not_true_eq_false, if_false, htake, hdrop]
      rw [if_pos (by omega), if_neg (by omega)]
      have wf := encs_wf vs hc.1 (by omega) hc.2.1
      have hp := parse_rep (r := j % 65536) (s := ⟨⟨hdr (j % 65536) FTStruct (total (encs vs 0)) ++ (encs vs 0).flatten,
        encItems items (j + 1) ++ extra⟩, List.replicate m Entry.zero, false, false, none, false, []⟩)
        (fs := padTo m (encs vs 0))
        (by simp only [total_padTo, padTo_flatten]) (wf.padTo m) (by rw [total_padTo]; exact hsm)
        (by intro i hi _; simp at hi; simp [hi])
      obtain ⟨cs, e1, e2⟩ := ih extra (j + 1) fuel hc.2.2 (by omega) (by rw [encItems_length]; omega)
      rw [hp, e1]
      refine ⟨_, rfl, ?_⟩
      simp only [ItemsRep]
      refine ⟨⟨j % 65536, ⟨?_, ?_, wf.padTo m, by rw [total_padTo]; exact hsm, ?_, ?_⟩, by simp⟩, e2⟩
      · simp only [total_padTo, padTo_flatten]
      · simp; exact padTo_length m (encs vs 0)
      · simp
      · intro _ i hi hbi
        simp only [idxOf_length, List.length_replicate] at hi ⊢
        rw [idxOf_getElem?, if_pos hi]; simp [entryOf, hbi]

theorem getListStructs_absent {r : Nat} {s : St} {fs : List Bytes} (h : Rep r s fs) (i m : Nat)
    (hb : s.idx.length ≤ i ∨ blob fs i = []) : getListStructs s i m = .ok none := by
  simp only [getListStructs, h.fieldOffset, Res.ok_bind]
  by_cases hi : i < s.idx.length
  · have hb' : blob fs i = [] := by rcases hb with h | h; omega; exact h
    simp [hi, entryOf, hb', Entry.zero]
  · simp [hi]

theorem getListStructs_present {r : Nat} {s : St} {fs : List Bytes} (h : Rep r s fs) {i : Nat} (m : Nat)
    (items : List (List Val)) (hi : i < s.idx.length)
    (hb : blob fs i = (Val.structs items).enc i) (hc : ItemsCanon items) (hne : items ≠ []) :
    ∃ cs, getListStructs s i m = .ok (some cs) ∧ ItemsRep m cs items := by
  have hlen := h.len
  obtain ⟨A, B, hd, hA⟩ := h.split (i := i) (by omega)
  have hblen : (blob fs i).length = 8 + itemSizes items := by rw [hb, enc_length, Val.size]
  have hpos : 8 ≤ itemSizes items := by
    cases items with
    | nil => exact absurd rfl hne
    | cons vs items => simp only [itemSizes]; omega
  have hsm : 8 + itemSizes items < 2 ^ 32 := by
    have := offsetOf_le_total fs i; have := h.small; omega
  have hne : blob fs i ≠ [] := by intro e; rw [e] at hblen; simp at hblen; omega
  simp only [getListStructs, h.fieldOffset, Res.ok_bind, hi, if_true, entryOf, hne, if_false]
  rw [if_neg (by intro e; exact hne (List.length_eq_zero_iff.mp e)), if_pos (by simp [HeaderSize]; omega)]
  have h1 := Seg.sub_eq s.seg A (blob fs i) B hd (A.length + (blob fs i).length) rfl
  rw [hA] at h1
  rw [h1]
  have hdrop : (blob fs i).drop HeaderSize = encItems items 0 := by
    rw [hb, Val.enc]; exact List.drop_left' (by simp [HeaderSize])
  simp only [Res.ok_bind, hdrop]
  obtain ⟨cs, e1, e2⟩ := parseStructs_eq m items
    ((s.seg.data ++ s.seg.spare).drop (offsetOf fs i + (blob fs i).length)) 0 (blob fs i).length hc
    (by omega) (by rw [encItems_length]; omega)
  exact ⟨cs, by rw [e1]; rfl, e2⟩

theorem ItemsHaveTy.cons {vs : List Val} {items : List (List Val)} {tys : List Ty}
    (h : ItemsHaveTy (vs :: items) tys) : FieldsHaveTy vs tys ∧ ItemsHaveTy items tys := by
  simpa [ItemsHaveTy] using h

/-- Read all items, given that each can be read. -/
theorem read_items (tys : List Ty) (items : List (List Val)) : ∀ cs, ItemsRep tys.length cs items →
    ItemsCanon items → ItemsHaveTy items tys →
    (∀ r c vs, Rep r c (padTo tys.length (encs vs 0)) → c.idx.length = tys.length → Canons vs →
      vs.length ≤ 65536 → FieldsHaveTy vs tys → readFields tys c 0 = .ok (viewFields tys vs)) →
    mapRes (fun c => readFields tys c 0) cs = .ok (items.map fun vs => viewFields tys vs) := by
  induction items with
  | nil => intro cs h _ _ _; cases cs <;> simp [ItemsRep] at h; simp [mapRes]
  | cons vs items ih =>
    intro cs h hc ht hr
    cases cs with
    | nil => simp [ItemsRep] at h
    | cons c cs =>
      simp only [ItemsRep] at h
      obtain ⟨⟨r, h1, h2⟩, h3⟩ := h
      simp only [ItemsCanon] at hc
      have ht := ht.cons
      simp only [mapRes, hr r c vs h1 h2 hc.2.1 hc.1 ht.1, ih cs h3 hc.2.2 ht.2 hr, Res.ok_bind]
      simp

mutual
theorem read_val (ty : Ty) {r : Nat} {s : St} {vs : List Val} {pad : Nat}
    (h : Rep r s (padTo pad (encs vs 0))) (hc : Canons vs) (hm : vs.length ≤ 65536)
    (i : Nat) (hi : i < s.idx.length) (hty : (vs.getD i .absent).HasTy ty) :
    ty.read s i = .ok (ty.view (vs.getD i .absent)) := by
  have hblob : blob (padTo pad (encs vs 0)) i = (vs.getD i .absent).enc i := by
    rw [blob_padTo, blob_encs, Nat.zero_add]
  have hcan := hc.get i
  have hsz : (vs.getD i .absent).size < 2 ^ 32 := by
    have h1 := sizes_ge vs i
    have h2 := h.small
    rw [total_padTo, total_encs] at h2
    omega
  have hi16 : (vs.getD i .absent).isAbsent = false → i < 2 ^ 16 := by
    intro hp
    rcases Nat.lt_or_ge i vs.length with h' | h'
    · omega
    · rw [List.getD_eq_getElem?_getD, List.getElem?_eq_none h'] at hp; simp [Val.isAbsent] at hp
  generalize hv : vs.getD i .absent = v at *
  match ty, v with
  | .scalar t, .absent =>
    simp only [Ty.read, Ty.view]
    rw [get_absent h i (Or.inr (by rw [hblob]; simp [Val.enc])) t]
    simp [isZero_zero]
  | .struct tys, .absent =>
    simp only [Ty.read, Ty.view]
    rw [getNested_absent h i _ (Or.inr (by rw [hblob]; simp [Val.enc]))]
    simp
  | .structs tys, .absent =>
    simp only [Ty.read, Ty.view]
    rw [getListStructs_absent h i _ (Or.inr (by rw [hblob]; simp [Val.enc]))]
    simp
  | .scalar t, .scalar t' x =>
    simp only [Val.HasTy] at hty
    subst hty
    simp only [Val.Canon] at hcan
    simp only [Ty.read, Ty.view]
    rw [get_scalar h t' x hi (hi16 (by simp [Val.isAbsent])) hcan.1 (by simpa [Val.size] using hsz)
      hcan.2 (by rw [hblob, Val.enc])]
    simp [hcan.1]
  | .structs tys, .structs items =>
    simp only [Val.HasTy] at hty
    simp only [Val.Canon] at hcan
    simp only [Ty.read, Ty.view]
    obtain ⟨cs, h1, h2⟩ := getListStructs_present h tys.length items hi hblob hcan.2 hcan.1
    rw [h1]
    have hread := read_items tys items cs h2 hcan.2 hty (by
      intro r c ws hr hl hcw hlw htw
      have := read_fields tys hr hcw hlw 0 (by omega) (by
        intro j ty' hj; rw [Nat.zero_add]; exact htw.get j ty' hj)
      rw [this]
      simp [viewFields_eq_map])
    simp only [Res.ok_bind, hread, Res.pure_eq]
    have hne : (items.map fun vs => viewFields tys vs).isEmpty = false := by
      cases items with
      | nil => exact absurd rfl hcan.1
      | cons _ _ => rfl
    simp [hne]
  | .struct tys, .struct ws =>
    simp only [Val.HasTy] at hty
    simp only [Val.Canon] at hcan
    simp only [Val.size] at hsz
    simp only [Ty.read, Ty.view]
    obtain ⟨c, h1, h2, h3⟩ := getNested_present h (gs := encs ws 0) tys.length hi
      (by rw [hblob, Val.enc]) (encs_wf ws hcan.1 (by omega) hcan.2.2)
    rw [h1]
    have := read_fields tys h2 hcan.2.2 hcan.1 0 (by omega) (by
      intro j ty' hj; rw [Nat.zero_add]; exact hty.get j ty' hj)
    simp only [Res.ok_bind, this]
    simp [viewFields_eq_map]
theorem read_fields (tys : List Ty) {r : Nat} {s : St} {vs : List Val} {pad : Nat}
    (h : Rep r s (padTo pad (encs vs 0))) (hc : Canons vs) (hm : vs.length ≤ 65536)
    (i : Nat) (hi : i + tys.length ≤ s.idx.length)
    (hty : ∀ j ty, tys[j]? = some ty → (vs.getD (i + j) .absent).HasTy ty) :
    readFields tys s i = .ok (tys.mapIdx (fun j ty => ty.view (vs.getD (i + j) .absent))) := by
  match tys with
  | [] => simp [readFields]
  | ty :: tys =>
    simp only [List.length_cons] at hi
    have e1 := read_val ty h hc hm i (by omega) (by simpa using hty 0 ty (by simp))
    have e2 := read_fields tys h hc hm (i + 1) (by omega) (by
      intro j ty' hj
      have := hty (j + 1) ty' (by simpa using hj)
      rwa [show i + (j + 1) = i + 1 + j by omega] at this)
    simp only [readFields, e1, e2, Res.ok_bind, Res.pure_eq, List.mapIdx_cons, Nat.add_zero]
    congr 2
    apply List.ext_getElem?
    intro j
    simp only [List.getElem?_mapIdx]
    rw [show i + 1 + j = i + (j + 1) by omega]
end

theorem padTo_self {m : Nat} {fs : List Bytes} (h : m ≤ fs.length) : padTo m fs = fs := by
  simp [padTo, Nat.sub_eq_zero_of_le h]

/-- Marshalling a represented struct without IsSet tracking returns its canonical bytes. -/
theorem marshal_rep {r : Nat} {s : St} {fs : List Bytes} (h : Rep r s fs) (he : s.isSetEnabled = false) :
    s.marshal = .ok (hdr r FTStruct (total fs) ++ fs.flatten, s) := by
  have hg := Seg.putHeaderSize_eq s.seg r FTStruct (total fs) fs.flatten h.data (total fs)
    (by have := h.small; omega)
  have hlen : s.seg.data.length = total fs := by rw [h.data]; simp [total]
  simp only [St.marshal, he, Bool.false_eq_true, false_and, if_false]
  rw [hlen, hg]
  simp only [Res.ok_bind, Res.pure_eq, ← h.data]
  rw [← he]

/-- Unmarshalling canonical bytes. Entries of absent fields must be zero beforehand. -/
theorem unmarshal_rep {fs : List Bytes} (wf : WFs fs) (hs : total fs < 2 ^ 32) (r : Nat)
    (hr : r < 2 ^ 16) (s : St) (m : Nat)
    (hm : s.idx.length = m) (h0 : ∀ i, i < m → blob fs i = [] → s.idx[i]? = some Entry.zero)
    (after extra : Bytes) :
    ∃ s', s.unmarshal (hdr r FTStruct (total fs) ++ fs.flatten ++ after) extra = some s' ∧
      Rep r s' (padTo m fs) ∧ s'.idx.length = m ∧ s'.isSetEnabled = s.isSetEnabled := by
  have hlen : ¬ (hdr r FTStruct (total fs) ++ fs.flatten ++ after).length < HeaderSize := by
    simp [HeaderSize]
  have htake : (hdr r FTStruct (total fs) ++ fs.flatten ++ after).take HeaderSize
      = hdr r FTStruct (total fs) := by
    rw [List.append_assoc]; exact List.take_left' (by simp)
  have hdec := decodeHeader_hdr hr (ft := FTStruct) (by decide) (by omega : total fs < 2 ^ 40) []
  rw [List.append_nil] at hdec
  have hle : ¬ total fs > (hdr r FTStruct (total fs) ++ fs.flatten ++ after).length := by
    simp [total]
  simp only [St.unmarshal, hlen, if_false, htake, hdec, hle, ne_eq, not_true_eq_false]
  refine ⟨_, rfl, ⟨?_, ?_, wf.padTo m, by rw [total_padTo]; exact hs, by simp, ?_⟩, hm, rfl⟩
  · simp only [total_padTo, padTo_flatten]
    exact List.take_left' (by simp [total])
  · simp only [hm]; exact padTo_length m fs
  · intro _ i hi hb
    rw [blob_padTo] at hb
    exact h0 i (by simpa [hm] using hi) hb

end Claw
