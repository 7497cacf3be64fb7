import Verif.Spec.RawConv
import Verif.Lemmas.Within

/-!
# Lemmas on conversion to and from Raw structs
-/

namespace Claw.RawConv

theorem specOps_append (a b : List Op) (r : List Val) : specOps (a ++ b) r = specOps b (specOps a r) := by
  induction a generalizing r with
  | nil => rfl
  | cons x a ih => simp [specOps, ih]

theorem withinFrom_append {m : Nat} {a b : List Op} {r : List Val} :
    WithinFrom m (a ++ b) r ↔ WithinFrom m a r ∧ WithinFrom m b (specOps a r) := by
  induction a generalizing r with
  | nil => simp [WithinFrom, specOps]
  | cons x a ih => simp only [List.cons_append, WithinFrom, specOps, ih, and_assoc]

theorem RawsHaveTy.length : ∀ {fs : List RawField} {tys : List Ty}, RawsHaveTy fs tys → fs.length = tys.length
  | [], [], _ => rfl
  | [], _ :: _, h => by simp [RawsHaveTy] at h
  | _ :: _, [], h => by simp [RawsHaveTy] at h
  | _ :: _, _ :: _, h => by
    simp only [RawsHaveTy] at h
    simp [RawsHaveTy.length h.2]

theorem records_length : ∀ fs : List RawField, (records fs).length = fs.length
  | [] => rfl
  | _ :: fs => by simp [records, records_length fs]

theorem set_mid (pre post : List Val) (a b : Val) : (pre ++ a :: post).set pre.length b = pre ++ b :: post := by
  induction pre with
  | nil => rfl
  | cons x pre ih => simp [ih]

mutual
/-- The calls for a field leave the value the field stands for, and touch nothing else. -/
theorem fromField_spec (f : RawField) (ty : Ty) (pre post : List Val) (h : f.HasTy ty) :
    specOps (fromField ty f pre.length) (pre ++ .absent :: post) = pre ++ f.record :: post := by
  match f, ty with
  | .scalar t v, .scalar _ =>
    simp only [fromField, RawField.record, specScalar]
    split <;> simp [specOps, Op.spec, specScalar, *]
  | .slice t none, .scalar _ => simp [fromField, specOps, RawField.record]
  | .slice t (some v), .scalar _ =>
    have key : t ≠ .any → t ≠ .lany → (RawField.slice t (some v)).record = specScalar t v := by
      intro h1 h2
      cases t <;> first | rfl | exact absurd rfl h1 | exact absurd rfl h2
    simp only [fromField, fromSlice]
    by_cases ha : t = .any ∨ t = .lany
    · rw [if_pos ha]
      rcases ha with rfl | rfl <;> simp [specOps, RawField.record]
    · rw [if_neg ha, key (fun e => ha (Or.inl e)) (fun e => ha (Or.inr e))]
      split
      · rename_i hz
        simp only [Bool.and_eq_true] at hz
        simp [specOps, specScalar, hz.2]
      · simp [specOps, Op.spec]
  | .nilStruct, .struct _ => simp [fromField, specOps, RawField.record]
  | .struct fs, .struct tys =>
    simp only [RawField.HasTy] at h
    obtain ⟨_, h⟩ := h
    have := fromFields_spec fs tys [] h
    simp only [List.nil_append, List.length_nil] at this
    simp only [fromField, specOps, Op.spec, RawField.record]
    rw [← h.length, this, set_mid]
  | .nilStructs, .structs _ => simp [fromField, specOps, RawField.record]
  | .structs items, .structs tys =>
    simp only [RawField.HasTy] at h
    simp only [fromField, specOps, Op.spec, RawField.record]
    rw [fromItems_spec items tys h.2, set_mid]
  | .scalar _ _, .struct _ | .scalar _ _, .structs _ | .slice _ _, .struct _ | .slice _ _, .structs _
  | .nilStruct, .scalar _ | .nilStruct, .structs _ | .struct _, .scalar _ | .struct _, .structs _
  | .nilStructs, .scalar _ | .nilStructs, .struct _ | .structs _, .scalar _ | .structs _, .struct _ =>
    simp [RawField.HasTy] at h
theorem fromFields_spec (fs : List RawField) (tys : List Ty) (pre : List Val) (h : RawsHaveTy fs tys) :
    specOps (fromFields tys fs pre.length) (pre ++ List.replicate fs.length .absent) = pre ++ records fs := by
  match fs, tys with
  | [], [] => simp [fromFields, specOps, records]
  | [], _ :: _ => simp [RawsHaveTy] at h
  | _ :: _, [] => simp [RawsHaveTy] at h
  | f :: fs, ty :: tys =>
    simp only [RawsHaveTy] at h
    simp only [fromFields, List.length_cons, List.replicate_succ, specOps_append, records]
    rw [fromField_spec f ty pre _ h.1]
    have := fromFields_spec fs tys (pre ++ [f.record]) h.2
    simp only [List.length_append, List.length_cons, List.length_nil, List.append_assoc, List.cons_append,
      List.nil_append] at this
    exact this
theorem fromItems_spec (items : List RawField) (tys : List Ty) (h : RawItemsHaveTy items tys) :
    specItems tys.length (fromItems tys items) = itemRecords items := by
  match items with
  | [] => simp [fromItems, specItems, itemRecords]
  | .nilStruct :: items =>
    simp only [RawItemsHaveTy] at h
    simp only [fromItems, itemRecords]
    exact fromItems_spec items tys h
  | .struct fs :: items =>
    simp only [RawItemsHaveTy] at h
    have := fromFields_spec fs tys [] h.1
    simp only [List.nil_append, List.length_nil] at this
    simp only [fromItems, specItems, itemRecords]
    rw [← h.1.length, this, h.1.length, fromItems_spec items tys h.2]
  | .scalar _ _ :: _ | .slice _ _ :: _ | .nilStructs :: _ | .structs _ :: _ => simp [RawItemsHaveTy] at h
end

theorem fromRaw_spec {fs : List RawField} {tys : List Ty} (h : RawsHaveTy fs tys) :
    specRun tys.length (fromRaw tys fs) = records fs := by
  have := fromFields_spec fs tys [] h
  simpa [specRun, fromRaw, h.length] using this

/-! ### Sizes -/

theorem sizes_append (a b : List Val) : sizes (a ++ b) = sizes a + sizes b := by
  induction a with
  | nil => simp [sizes]
  | cons x a ih => simp [sizes, ih]; omega

theorem sizes_absent (n : Nat) : sizes (List.replicate n .absent) = 0 := by
  induction n with
  | zero => rfl
  | succ n ih => simp [List.replicate_succ, sizes, Val.size, ih]

theorem size_struct (vs : List Val) : (specStruct vs).size = 0 ∧ sizes vs = 0 ∨ (specStruct vs).size = 8 + sizes vs := by
  unfold specStruct
  split
  · rename_i h
    left
    refine ⟨rfl, ?_⟩
    induction vs with
    | nil => rfl
    | cons v vs ih =>
      simp only [List.all_cons, Bool.and_eq_true] at h
      have : v = .absent := by
        cases v <;> simp [Val.isAbsent] at h ⊢
      simp [sizes, this, Val.size, ih h.2]
  · right; rfl

theorem size_structs (items : List (List Val)) : (specStructs items).size = 8 + itemSizes items ∨ items = [] := by
  unfold specStructs
  cases items <;> simp [Val.size]

mutual
theorem fromField_within (f : RawField) (ty : Ty) (m : Nat) (pre post : List Val) (h : f.HasTy ty) (hc : f.Clean)
    (hm : pre.length < m) (hs : 8 + sizes (pre ++ f.record :: post) < 2 ^ 32) :
    WithinFrom m (fromField ty f pre.length) (pre ++ .absent :: post) := by
  have hspec := fromField_spec f ty pre post h
  have hsz : f.record.size < 2 ^ 32 := by
    rw [sizes_append] at hs; simp only [sizes] at hs; omega
  match f, ty with
  | .scalar t v, .scalar _ =>
    simp only [RawField.Clean] at hc
    simp only [fromField] at hspec ⊢
    split at hspec
    · rw [if_pos (by assumption)]; simp [WithinFrom]
    · rename_i hz
      rw [if_neg hz]
      simp only [specOps] at hspec
      simp only [WithinFrom, Op.Within, hspec, and_true]
      exact ⟨⟨hm, hc.storable⟩, hs⟩
  | .slice t none, .scalar _ => simp [fromField, WithinFrom]
  | .slice t (some v), .scalar _ =>
    simp only [RawField.Clean] at hc
    simp only [fromField, fromSlice] at hspec ⊢
    by_cases ha : t = .any ∨ t = .lany
    · rw [if_pos ha]; simp [WithinFrom]
    · rw [if_neg ha] at hspec ⊢
      split at hspec
      · rw [if_pos (by assumption)]; simp [WithinFrom]
      · rw [if_neg (by assumption)]
        simp only [specOps] at hspec
        simp only [WithinFrom, Op.Within, hspec, and_true]
        exact ⟨⟨hm, (hc v rfl (fun e => ha (Or.inl e)) fun e => ha (Or.inr e)).storable⟩, hs⟩
  | .nilStruct, .struct _ => simp [fromField, WithinFrom]
  | .struct fs, .struct tys =>
    simp only [RawField.HasTy] at h
    simp only [RawField.Clean] at hc
    simp only [fromField, specOps] at hspec
    simp only [fromField, WithinFrom, Op.Within, hspec, and_true]
    obtain ⟨hl, h⟩ := h
    refine ⟨⟨hm, hl, ?_⟩, hs⟩
    rw [← h.length]
    simp only [RawField.record] at hsz
    have := fromFields_within fs tys fs.length [] h hc (by simp) (by
      rcases size_struct (records fs) with ⟨_, e⟩ | e
      · simp [e]
      · rw [e] at hsz; simpa using hsz)
    simpa using this
  | .nilStructs, .structs _ => simp [fromField, WithinFrom]
  | .structs items, .structs tys =>
    simp only [RawField.HasTy] at h
    simp only [RawField.Clean] at hc
    simp only [fromField, specOps] at hspec
    simp only [fromField, WithinFrom, Op.Within, hspec, and_true]
    simp only [RawField.record] at hsz
    refine ⟨⟨hm, h.1, fromItems_within items tys h.2 hc ?_⟩, hs⟩
    rcases size_structs (itemRecords items) with e | e
    · omega
    · simp [e, itemSizes]
  | .scalar _ _, .struct _ | .scalar _ _, .structs _ | .slice _ _, .struct _ | .slice _ _, .structs _
  | .nilStruct, .scalar _ | .nilStruct, .structs _ | .struct _, .scalar _ | .struct _, .structs _
  | .nilStructs, .scalar _ | .nilStructs, .struct _ | .structs _, .scalar _ | .structs _, .struct _ =>
    simp [RawField.HasTy] at h
theorem fromFields_within (fs : List RawField) (tys : List Ty) (m : Nat) (pre : List Val) (h : RawsHaveTy fs tys)
    (hc : RawsClean fs) (hm : pre.length + fs.length ≤ m) (hs : 8 + sizes (pre ++ records fs) < 2 ^ 32) :
    WithinFrom m (fromFields tys fs pre.length) (pre ++ List.replicate fs.length .absent) := by
  match fs, tys with
  | [], [] => simp [fromFields, WithinFrom]
  | [], _ :: _ => simp [RawsHaveTy] at h
  | _ :: _, [] => simp [RawsHaveTy] at h
  | f :: fs, ty :: tys =>
    simp only [RawsHaveTy] at h
    simp only [RawsClean] at hc
    simp only [List.length_cons] at hm
    simp only [records] at hs
    simp only [fromFields, List.length_cons, List.replicate_succ, withinFrom_append]
    rw [fromField_spec f ty pre _ h.1]
    refine ⟨fromField_within f ty m pre _ h.1 hc.1 (by omega) ?_, ?_⟩
    · rw [sizes_append] at hs ⊢
      simp only [sizes, sizes_absent] at hs ⊢
      omega
    · have := fromFields_within fs tys m (pre ++ [f.record]) h.2 hc.2 (by simp; omega) (by simpa using hs)
      simpa using this
theorem fromItems_within (items : List RawField) (tys : List Ty) (h : RawItemsHaveTy items tys) (hc : RawItemsClean items)
    (hs : itemSizes (itemRecords items) < 2 ^ 32) : WithinItems tys.length (fromItems tys items) := by
  match items with
  | [] => simp [fromItems, WithinItems]
  | .nilStruct :: items =>
    simp only [RawItemsHaveTy] at h
    simp only [RawItemsClean] at hc
    simp only [itemRecords] at hs
    simp only [fromItems]
    exact fromItems_within items tys h hc hs
  | .struct fs :: items =>
    simp only [RawItemsHaveTy] at h
    simp only [RawItemsClean] at hc
    simp only [itemRecords, itemSizes] at hs
    simp only [fromItems, WithinItems]
    refine ⟨?_, fromItems_within items tys h.2 hc.2 (by omega)⟩
    have := fromFields_within fs tys tys.length [] h.1 hc.1 (by simp [h.1.length]) (by simp; omega)
    simpa [h.1.length] using this
  | .scalar _ _ :: _ | .slice _ _ :: _ | .nilStructs :: _ | .structs _ :: _ => simp [RawItemsHaveTy] at h
end

theorem fromRaw_within {fs : List RawField} {tys : List Ty} (h : RawsHaveTy fs tys) (hc : RawsClean fs)
    (hm : tys.length ≤ 65536) (hs : 8 + sizes (records fs) < 2 ^ 32) : Within tys.length (fromRaw tys fs) := by
  refine ⟨hm, ?_⟩
  have := fromFields_within fs tys tys.length [] h hc (by simp [h.length]) (by simpa using hs)
  simpa [fromRaw, h.length] using this

/-! ### The record of a Raw struct has the types of the schema and is clean -/

theorem slice_record {t : STy} {v : t.Val} (h1 : t ≠ .any) (h2 : t ≠ .lany) :
    (RawField.slice t (some v)).record = specScalar t v := by
  cases t <;> first | rfl | exact absurd rfl h1 | exact absurd rfl h2

theorem slice_record_any {t : STy} {v : t.Val} (h : t = .any ∨ t = .lany) :
    (RawField.slice t (some v)).record = .absent := by
  rcases h with rfl | rfl <;> rfl

theorem specScalar_ty {t t' : STy} {v : t.Val} (h : t = t') : (specScalar t v).HasTy (.scalar t') := by
  unfold specScalar
  split
  · simp [Val.HasTy]
  · simpa [Val.HasTy] using h

theorem specScalar_tidy {t : STy} {v : t.Val} (h : t.Clean v) : (specScalar t v).Tidy := by
  unfold specScalar
  split
  · simp [Val.Tidy]
  · simpa [Val.Tidy] using h

mutual
theorem record_ty (f : RawField) (ty : Ty) (h : f.HasTy ty) : f.record.HasTy ty := by
  match f, ty with
  | .scalar t v, .scalar _ => simp only [RawField.HasTy] at h; exact specScalar_ty h.1
  | .slice t none, .scalar _ => simp [RawField.record, Val.HasTy]
  | .slice t (some v), .scalar _ =>
    simp only [RawField.HasTy] at h
    by_cases ha : t = .any ∨ t = .lany
    · rw [slice_record_any ha]; simp [Val.HasTy]
    · rw [slice_record (fun e => ha (Or.inl e)) fun e => ha (Or.inr e)]; exact specScalar_ty h.1
  | .nilStruct, .struct _ => simp [RawField.record, Val.HasTy]
  | .struct fs, .struct tys =>
    simp only [RawField.HasTy] at h
    simp only [RawField.record, specStruct]
    split
    · simp [Val.HasTy]
    · simp only [Val.HasTy]; exact records_ty fs tys h.2
  | .nilStructs, .structs _ => simp [RawField.record, Val.HasTy]
  | .structs items, .structs tys =>
    simp only [RawField.HasTy] at h
    simp only [RawField.record, specStructs]
    split
    · simp [Val.HasTy]
    · simp only [Val.HasTy]; exact itemRecords_ty items tys h.2
  | .scalar _ _, .struct _ | .scalar _ _, .structs _ | .slice _ _, .struct _ | .slice _ _, .structs _
  | .nilStruct, .scalar _ | .nilStruct, .structs _ | .struct _, .scalar _ | .struct _, .structs _
  | .nilStructs, .scalar _ | .nilStructs, .struct _ | .structs _, .scalar _ | .structs _, .struct _ =>
    simp [RawField.HasTy] at h
theorem records_ty (fs : List RawField) (tys : List Ty) (h : RawsHaveTy fs tys) : FieldsHaveTy (records fs) tys := by
  match fs, tys with
  | [], [] => simp [records, FieldsHaveTy]
  | [], _ :: _ => simp [RawsHaveTy] at h
  | _ :: _, [] => simp [RawsHaveTy] at h
  | f :: fs, ty :: tys =>
    simp only [RawsHaveTy] at h
    simp only [records, FieldsHaveTy]
    exact ⟨record_ty f ty h.1, records_ty fs tys h.2⟩
theorem itemRecords_ty (items : List RawField) (tys : List Ty) (h : RawItemsHaveTy items tys) :
    ItemsHaveTy (itemRecords items) tys := by
  match items with
  | [] => simp [itemRecords, ItemsHaveTy]
  | .nilStruct :: items =>
    simp only [RawItemsHaveTy] at h
    simp only [itemRecords]
    exact itemRecords_ty items tys h
  | .struct fs :: items =>
    simp only [RawItemsHaveTy] at h
    simp only [itemRecords, ItemsHaveTy]
    exact ⟨records_ty fs tys h.1, itemRecords_ty items tys h.2⟩
  | .scalar _ _ :: _ | .slice _ _ :: _ | .nilStructs :: _ | .structs _ :: _ => simp [RawItemsHaveTy] at h
end

mutual
theorem record_tidy (f : RawField) (h : f.Clean) : f.record.Tidy := by
  match f with
  | .scalar t v => exact specScalar_tidy h
  | .slice t none => simp [RawField.record, Val.Tidy]
  | .slice t (some v) =>
    simp only [RawField.Clean] at h
    by_cases ha : t = .any ∨ t = .lany
    · rw [slice_record_any ha]; simp [Val.Tidy]
    · rw [slice_record (fun e => ha (Or.inl e)) fun e => ha (Or.inr e)]
      exact specScalar_tidy (h v rfl (fun e => ha (Or.inl e)) fun e => ha (Or.inr e))
  | .nilStruct => simp [RawField.record, Val.Tidy]
  | .struct fs =>
    simp only [RawField.Clean] at h
    simp only [RawField.record, specStruct]
    split
    · simp [Val.Tidy]
    · simp only [Val.Tidy]; exact records_tidy fs h
  | .nilStructs => simp [RawField.record, Val.Tidy]
  | .structs items =>
    simp only [RawField.Clean] at h
    simp only [RawField.record, specStructs]
    split
    · simp [Val.Tidy]
    · simp only [Val.Tidy]; exact itemRecords_tidy items h
theorem records_tidy (fs : List RawField) (h : RawsClean fs) : Tidies (records fs) := by
  match fs with
  | [] => simp [records, Tidies]
  | f :: fs =>
    simp only [RawsClean] at h
    simp only [records, Tidies]
    exact ⟨record_tidy f h.1, records_tidy fs h.2⟩
theorem itemRecords_tidy (items : List RawField) (h : RawItemsClean items) : ItemsTidy (itemRecords items) := by
  match items with
  | [] => simp [itemRecords, ItemsTidy]
  | .struct fs :: items =>
    simp only [RawItemsClean] at h
    simp only [itemRecords, ItemsTidy]
    exact ⟨records_tidy fs h.1, itemRecords_tidy items h.2⟩
  | .nilStruct :: items | .scalar _ _ :: items | .slice _ _ :: items | .nilStructs :: items | .structs _ :: items =>
    simp only [RawItemsClean] at h
    simp only [itemRecords]
    exact itemRecords_tidy items h
end

/-! ### Reading -/

theorem enc_ne {v : Val} (h : v.isAbsent = false) (i : Nat) : v.enc i ≠ [] := by
  have hl := enc_length v i
  intro e
  rw [e] at hl
  cases v with
  | absent => simp [Val.isAbsent] at h
  | scalar t x =>
    simp only [List.length_nil, Val.size] at hl
    cases t <;> simp only [scalarSize] at hl <;> try omega
    case any => cases x <;> simp only [scalarSize] at hl <;> omega
  | struct vs => simp only [List.length_nil, Val.size] at hl; omega
  | structs items => simp only [List.length_nil, Val.size] at hl; omega

theorem hasField_rep {r : Nat} {s : St} {vs : List Val} {pad : Nat} (h : Rep r s (padTo pad (encs vs 0))) {i : Nat}
    (hi : i < s.idx.length) : ∃ s', s.hasField i = .ok (!(vs.getD i .absent).isAbsent, s') := by
  have hblob : blob (padTo pad (encs vs 0)) i = (vs.getD i .absent).enc i := by
    rw [blob_padTo, blob_encs, Nat.zero_add]
  rw [St.hasField, h.ensure]
  simp only [Res.ok_bind, idxOf_getElem?, hi, if_true]
  refine ⟨{ s with idx := idxOf s.idx.length (padTo pad (encs vs 0)), parsed := true }, ?_⟩
  generalize vs.getD i .absent = v at *
  cases hv : v.isAbsent with
  | true =>
    have : v.enc i = [] := by
      cases v <;> simp [Val.isAbsent] at hv ⊢
      simp [Val.enc]
    simp [entryOf, hblob, this, Entry.zero]
  | false =>
    have hp : 0 < (v.enc i).length := List.length_pos_iff.2 (enc_ne hv i)
    simp [entryOf, hblob, enc_ne hv i, hp]

theorem raws_eq_mapIdx (tys : List Ty) : ∀ vs : List Val,
    raws tys vs = tys.mapIdx (fun j ty => Ty.raw ty (vs.getD j .absent)) := by
  induction tys with
  | nil => intro vs; cases vs <;> simp [raws]
  | cons ty tys ih =>
    intro vs
    cases vs with
    | nil => simp [raws, ih, List.mapIdx_cons]
    | cons v vs => simp [raws, ih, List.mapIdx_cons]

/-- Convert all items, given that each can be. -/
theorem to_items (tys : List Ty) (items : List (List Val)) : ∀ cs, ItemsRep tys.length cs items →
    ItemsCanon items → ItemsHaveTy items tys →
    (∀ r c vs, Rep r c (padTo tys.length (encs vs 0)) → c.idx.length = tys.length → Canons vs →
      vs.length ≤ 65536 → FieldsHaveTy vs tys → toFields tys c 0 = .ok (raws tys vs)) →
    mapRes (fun c => do
          let fs ← toFields tys c 0
          return RawField.struct fs) cs = .ok (items.map fun vs => .struct (raws tys vs)) := by
  induction items with
  | nil => intro cs h _ _ _; cases cs <;> simp [ItemsRep] at h; simp [mapRes]
  | cons vs items ih =>
    intro cs h hc ht hr
    cases cs with
    | nil => simp [ItemsRep] at h
    | cons c cs =>
      simp only [ItemsRep] at h
      obtain ⟨⟨r, h1, h2⟩, h3⟩ := h
      simp only [ItemsCanon] at hc
      have ht := ht.cons
      simp only [mapRes, hr r c vs h1 h2 hc.2.1 hc.1 ht.1, ih cs h3 hc.2.2 ht.2 hr, Res.ok_bind]
      simp

mutual
theorem to_field (ty : Ty) {r : Nat} {s : St} {vs : List Val} {pad : Nat}
    (h : Rep r s (padTo pad (encs vs 0))) (hc : Canons vs) (hm : vs.length ≤ 65536)
    (i : Nat) (hi : i < s.idx.length) (hty : (vs.getD i .absent).HasTy ty) :
    toField ty s i = .ok (Ty.raw ty (vs.getD i .absent)) := by
  have hblob : blob (padTo pad (encs vs 0)) i = (vs.getD i .absent).enc i := by
    rw [blob_padTo, blob_encs, Nat.zero_add]
  obtain ⟨s', hhas⟩ := hasField_rep h hi
  have hcan := hc.get i
  have hsz : (vs.getD i .absent).size < 2 ^ 32 := by
    have h1 := sizes_ge vs i
    have h2 := h.small
    rw [total_padTo, total_encs] at h2
    omega
  have hi16 : (vs.getD i .absent).isAbsent = false → i < 2 ^ 16 := by
    intro hp
    rcases Nat.lt_or_ge i vs.length with h' | h'
    · omega
    · rw [List.getD_eq_getElem?_getD, List.getElem?_eq_none h'] at hp; simp [Val.isAbsent] at hp
  generalize hv : vs.getD i .absent = v at *
  match ty, v with
  | .scalar t, .absent =>
    simp only [toField, toScalar, Ty.raw, scalarRaw, hhas, Val.isAbsent]
    rw [get_absent h i (Or.inr (by rw [hblob]; simp [Val.enc])) t]
    split
    · simp
    · split
      · rfl
      · split <;> simp [isZero_zero]
  | .struct tys, .absent => simp [toField, hhas, Val.isAbsent, Ty.raw]
  | .structs tys, .absent => simp [toField, hhas, Val.isAbsent, Ty.raw]
  | .scalar t, .scalar t' x =>
    simp only [Val.HasTy] at hty
    subst hty
    simp only [Val.Canon] at hcan
    have hg := get_scalar h t' x hi (hi16 (by simp [Val.isAbsent])) hcan.1 (by simpa [Val.size] using hsz)
      hcan.2 (by rw [hblob, Val.enc])
    simp only [toField, toScalar, Ty.raw, scalarRaw, hhas, Val.isAbsent, hg]
    by_cases hp : plain t' = true
    · have : ¬ (t' = .any ∨ t' = .lany) := by rintro (rfl | rfl) <;> simp [plain] at hp
      simp [hp, this]
    · rw [if_neg hp, if_neg hp]
      split
      · rfl
      · split <;> simp [hcan.1]
  | .structs tys, .structs items =>
    simp only [Val.HasTy] at hty
    simp only [Val.Canon] at hcan
    obtain ⟨cs, h1, h2⟩ := getListStructs_present h tys.length items hi hblob hcan.2 hcan.1
    have hread := to_items tys items cs h2 hcan.2 hty (by
      intro r c ws hr hl hcw hlw htw
      have := to_fields tys hr hcw hlw 0 (by omega) (by
        intro j ty' hj; rw [Nat.zero_add]; exact htw.get j ty' hj)
      rw [this, raws_eq_mapIdx]
      simp)
    simp only [Res.pure_eq] at hread
    simp only [toField, hhas, Val.isAbsent, Ty.raw, Res.ok_bind, Bool.not_false, if_true, h1, hread, Res.pure_eq]
  | .struct tys, .struct ws =>
    simp only [Val.HasTy] at hty
    simp only [Val.Canon] at hcan
    simp only [Val.size] at hsz
    obtain ⟨c, h1, h2, h3⟩ := getNested_present h (gs := encs ws 0) tys.length hi
      (by rw [hblob, Val.enc]) (encs_wf ws hcan.1 (by omega) hcan.2.2)
    have := to_fields tys h2 hcan.2.2 hcan.1 0 (by omega) (by
      intro j ty' hj; rw [Nat.zero_add]; exact hty.get j ty' hj)
    simp only [toField, hhas, Val.isAbsent, Ty.raw, Res.ok_bind, Bool.not_false, if_true, h1, this, Res.pure_eq,
      raws_eq_mapIdx]
    simp
theorem to_fields (tys : List Ty) {r : Nat} {s : St} {vs : List Val} {pad : Nat}
    (h : Rep r s (padTo pad (encs vs 0))) (hc : Canons vs) (hm : vs.length ≤ 65536)
    (i : Nat) (hi : i + tys.length ≤ s.idx.length)
    (hty : ∀ j ty, tys[j]? = some ty → (vs.getD (i + j) .absent).HasTy ty) :
    toFields tys s i = .ok (tys.mapIdx (fun j ty => Ty.raw ty (vs.getD (i + j) .absent))) := by
  match tys with
  | [] => simp [toFields]
  | ty :: tys =>
    simp only [List.length_cons] at hi
    have e1 := to_field ty h hc hm i (by omega) (by simpa using hty 0 ty (by simp))
    have e2 := to_fields tys h hc hm (i + 1) (by omega) (by
      intro j ty' hj
      have := hty (j + 1) ty' (by simpa using hj)
      rwa [show i + (j + 1) = i + 1 + j by omega] at this)
    simp only [toFields, e1, e2, Res.ok_bind, Res.pure_eq, List.mapIdx_cons, Nat.add_zero]
    congr 2
    apply List.ext_getElem?
    intro j
    simp only [List.getElem?_mapIdx]
    rw [show i + 1 + j = i + (j + 1) by omega]
end

/-- ToRaw of what a program built. -/
theorem toRaw_run (m : Nat) (ops : List Op) (tys : List Ty) (hfit : Within m ops) (htidy : Tidies (specRun m ops))
    (hlen : tys.length = m) (hty : FieldsHaveTy (specRun m ops) tys) :
    ∃ s, run m ops = .ok s ∧ toRaw tys s = .ok (raws tys (specRun m ops)) := by
  obtain ⟨s0, h0, hr, hl, _⟩ := new_rep m
  obtain ⟨s, h1, h2, h3, h4⟩ := tidy_rep m ops hfit htidy hr hl
  refine ⟨s, by simp [run, h0, h1], ?_⟩
  have hpad : Rep 0 s (padTo 0 (encs (specOps ops (List.replicate m .absent)) 0)) := by
    rw [padTo_self (by omega)]; exact h2
  have := to_fields tys hpad h4 (by rw [specOps_length]; simpa using hfit.1) 0
    (by rw [h3.len, hl]; omega) (by intro j ty hj; rw [Nat.zero_add]; exact hty.get j ty hj)
  rw [toRaw, this, raws_eq_mapIdx]
  simp [specRun]

/-! ### Plain Raw structs come back -/

theorem specScalar_plain {t : STy} {v : t.Val} (hp : plain t = true) (h : t.isZero v = true → v = t.zero) :
    scalarRaw t (specScalar t v) = .scalar t v := by
  have hn : ¬ (t = .any ∨ t = .lany) := by rintro (rfl | rfl) <;> simp [plain] at hp
  unfold specScalar
  cases hz : t.isZero v with
  | true => simp [scalarRaw, hp, ← h hz]
  | false => simp [scalarRaw, hp, hn]

mutual
theorem plain_back (f : RawField) (ty : Ty) (h : f.HasTy ty) (hp : f.Plain) : Ty.raw ty f.record = f := by
  match f, ty with
  | .scalar t v, .scalar _ =>
    simp only [RawField.HasTy] at h
    simp only [RawField.Plain] at hp
    obtain ⟨rfl, h⟩ := h
    simp only [Ty.raw, RawField.record]
    exact specScalar_plain h hp
  | .slice t none, .scalar _ =>
    simp only [RawField.HasTy] at h
    obtain ⟨rfl, h⟩ := h
    simp [Ty.raw, RawField.record, scalarRaw, h]
  | .slice t (some v), .scalar _ =>
    simp only [RawField.HasTy] at h
    simp only [RawField.Plain] at hp
    obtain ⟨rfl, h⟩ := h
    obtain ⟨h1, h2, h3⟩ := hp v rfl
    rw [slice_record h1 h2]
    simp [Ty.raw, specScalar, h3, scalarRaw, h, h1, h2]
  | .nilStruct, .struct _ => simp [RawField.record, Ty.raw]
  | .struct fs, .struct tys =>
    simp only [RawField.HasTy] at h
    simp only [RawField.Plain] at hp
    simp only [RawField.record, specStruct]
    rw [if_neg (by simp [plain_set fs tys h.2 hp.1 hp.2])]
    simp only [Ty.raw, plains_back fs tys h.2 hp.1]
  | .nilStructs, .structs _ => simp [RawField.record, Ty.raw]
  | .structs items, .structs tys =>
    simp only [RawField.HasTy] at h
    simp only [RawField.Plain] at hp
    have e := plain_items items tys h.2 hp.2
    simp only [RawField.record, specStructs]
    have hne : (itemRecords items).isEmpty = false := by
      cases hq : itemRecords items with
      | nil => rw [hq] at e; simp at e; exact absurd e hp.1
      | cons _ _ => rfl
    rw [if_neg (by simp [hne])]
    simp only [Ty.raw, e]
  | .scalar _ _, .struct _ | .scalar _ _, .structs _ | .slice _ _, .struct _ | .slice _ _, .structs _
  | .nilStruct, .scalar _ | .nilStruct, .structs _ | .struct _, .scalar _ | .struct _, .structs _
  | .nilStructs, .scalar _ | .nilStructs, .struct _ | .structs _, .scalar _ | .structs _, .struct _ =>
    simp [RawField.HasTy] at h
theorem plains_back (fs : List RawField) (tys : List Ty) (h : RawsHaveTy fs tys) (hp : RawsPlain fs) :
    raws tys (records fs) = fs := by
  match fs, tys with
  | [], [] => simp [raws]
  | [], _ :: _ => simp [RawsHaveTy] at h
  | _ :: _, [] => simp [RawsHaveTy] at h
  | f :: fs, ty :: tys =>
    simp only [RawsHaveTy] at h
    simp only [RawsPlain] at hp
    simp only [records, raws, plain_back f ty h.1 hp.1, plains_back fs tys h.2 hp.2]
theorem plain_items (items : List RawField) (tys : List Ty) (h : RawItemsHaveTy items tys) (hp : RawItemsPlain items) :
    (itemRecords items).map (fun vs => RawField.struct (raws tys vs)) = items := by
  match items with
  | [] => simp [itemRecords]
  | .struct fs :: items =>
    simp only [RawItemsHaveTy] at h
    simp only [RawItemsPlain] at hp
    simp only [itemRecords, List.map_cons, plains_back fs tys h.1 hp.1, plain_items items tys h.2 hp.2]
  | .nilStruct :: _ | .scalar _ _ :: _ | .slice _ _ :: _ | .nilStructs :: _ | .structs _ :: _ => simp [RawItemsPlain] at hp
/-- A plain Raw struct with a field that is set stands for a record with a field that is set. -/
theorem plain_set (fs : List RawField) (tys : List Ty) (h : RawsHaveTy fs tys) (hp : RawsPlain fs) (hs : RawsSet fs) :
    (records fs).all Val.isAbsent = false := by
  match fs, tys with
  | [], _ => simp [RawsSet] at hs
  | _ :: _, [] => simp [RawsHaveTy] at h
  | .scalar t v :: fs, ty :: tys =>
    simp only [RawsHaveTy] at h
    simp only [RawsPlain] at hp
    simp only [RawsSet] at hs
    simp only [records, List.all_cons, RawField.record, specScalar]
    rcases hs with hs | hs
    · simp [hs, Val.isAbsent]
    · simp [plain_set fs tys h.2 hp.2 hs]
  | .slice _ none :: fs, ty :: tys | .nilStruct :: fs, ty :: tys | .nilStructs :: fs, ty :: tys =>
    simp only [RawsHaveTy] at h
    simp only [RawsPlain] at hp
    simp only [RawsSet] at hs
    simp [records, plain_set fs tys h.2 hp.2 hs]
  | .slice t (some v) :: fs, ty :: tys =>
    simp only [RawsPlain, RawField.Plain] at hp
    obtain ⟨h1, h2, h3⟩ := hp.1 v rfl
    simp only [records, slice_record h1 h2, specScalar, h3]
    simp [Val.isAbsent]
  | .struct gs :: fs, .struct tys' :: tys =>
    simp only [RawsHaveTy, RawField.HasTy] at h
    simp only [RawsPlain, RawField.Plain] at hp
    simp only [records, RawField.record, specStruct]
    rw [if_neg (by simp [plain_set gs tys' h.1.2 hp.1.1 hp.1.2])]
    simp [Val.isAbsent]
  | .structs items :: fs, .structs tys' :: tys =>
    simp only [RawsHaveTy, RawField.HasTy] at h
    simp only [RawsPlain, RawField.Plain] at hp
    have e := plain_items items tys' h.1.2 hp.1.2
    have hne : (itemRecords items).isEmpty = false := by
      cases hq : itemRecords items with
      | nil => rw [hq] at e; simp at e; exact absurd e hp.1.1
      | cons _ _ => rfl
    simp [records, RawField.record, specStructs, hne, Val.isAbsent]
  | .struct _ :: _, .scalar _ :: _ | .struct _ :: _, .structs _ :: _ | .structs _ :: _, .scalar _ :: _
  | .structs _ :: _, .struct _ :: _ => simp [RawsHaveTy, RawField.HasTy] at h
end

/-! ### Records come back -/

theorem clean_plain {t : STy} (h : plain t = true) (v : t.Val) : t.Clean v := by
  cases t <;> simp [plain] at h <;> trivial

mutual
theorem record_back (v : Val) (ty : Ty) (h : NoAny v ty) (hc : v.Canon) :
    (Ty.raw ty v).record = v ∧ (Ty.raw ty v).HasTy ty ∧ (Ty.raw ty v).Clean := by
  match v, ty with
  | .absent, .scalar t =>
    simp only [Ty.raw, scalarRaw]
    cases hp : plain t with
    | true =>
      simp only [if_true, RawField.record, specScalar, isZero_zero, RawField.HasTy, RawField.Clean, hp, and_self, true_and]
      exact clean_plain hp _
    | false => simp [RawField.record, RawField.HasTy, RawField.Clean, hp]
  | .absent, .struct tys => simp [Ty.raw, RawField.record, RawField.HasTy, RawField.Clean]
  | .absent, .structs tys => simp [Ty.raw, RawField.record, RawField.HasTy, RawField.Clean]
  | .scalar t x, .scalar t' =>
    simp only [NoAny] at h
    obtain ⟨rfl, h1, h2⟩ := h
    simp only [Val.Canon] at hc
    simp only [Ty.raw, scalarRaw, h1, h2, or_self, if_false]
    cases hp : plain t with
    | true => simp [RawField.record, specScalar, hc.1, RawField.HasTy, RawField.Clean, hp, hc.2]
    | false =>
      simp only [Bool.false_eq_true, if_false]
      rw [slice_record h1 h2]
      refine ⟨by simp [specScalar, hc.1], by simp [RawField.HasTy, hp], ?_⟩
      simp only [RawField.Clean, Option.some.injEq]
      rintro y rfl _ _
      exact hc.2
  | .struct vs, .struct tys =>
    simp only [NoAny] at h
    simp only [Val.Canon] at hc
    obtain ⟨e1, e2, e3⟩ := records_back vs tys h.2 hc.2.2
    simp only [Ty.raw, RawField.record, RawField.HasTy, RawField.Clean, e1]
    exact ⟨by simp [specStruct, hc.2.1], ⟨h.1, e2⟩, e3⟩
  | .structs items, .structs tys =>
    simp only [NoAny] at h
    simp only [Val.Canon] at hc
    obtain ⟨e1, e2, e3⟩ := items_back items tys h.2 hc.2
    simp only [Ty.raw, RawField.record, RawField.HasTy, RawField.Clean, e1]
    exact ⟨by simp [specStructs, hc.1], ⟨h.1, e2⟩, e3⟩
  | .scalar _ _, .struct _ | .scalar _ _, .structs _ | .struct _, .scalar _ | .struct _, .structs _
  | .structs _, .scalar _ | .structs _, .struct _ => simp [NoAny] at h
theorem records_back (vs : List Val) (tys : List Ty) (h : NoAnys vs tys) (hc : Canons vs) :
    records (raws tys vs) = vs ∧ RawsHaveTy (raws tys vs) tys ∧ RawsClean (raws tys vs) := by
  match vs, tys with
  | [], [] => simp [raws, records, RawsHaveTy, RawsClean]
  | [], _ :: _ => simp [NoAnys] at h
  | _ :: _, [] => simp [NoAnys] at h
  | v :: vs, ty :: tys =>
    simp only [NoAnys] at h
    simp only [Canons] at hc
    obtain ⟨e1, e2, e3⟩ := record_back v ty h.1 hc.1
    obtain ⟨f1, f2, f3⟩ := records_back vs tys h.2 hc.2
    simp only [raws, records, RawsHaveTy, RawsClean, e1, f1]
    exact ⟨trivial, ⟨e2, f2⟩, e3, f3⟩
theorem items_back (items : List (List Val)) (tys : List Ty) (h : NoAnyItems items tys) (hc : ItemsCanon items) :
    itemRecords (items.map fun vs => RawField.struct (raws tys vs)) = items ∧
      RawItemsHaveTy (items.map fun vs => RawField.struct (raws tys vs)) tys ∧
      RawItemsClean (items.map fun vs => RawField.struct (raws tys vs)) := by
  match items with
  | [] => simp [itemRecords, RawItemsHaveTy, RawItemsClean]
  | vs :: items =>
    simp only [NoAnyItems] at h
    simp only [ItemsCanon] at hc
    obtain ⟨e1, e2, e3⟩ := records_back vs tys h.1 hc.2.1
    obtain ⟨f1, f2, f3⟩ := items_back items tys h.2 hc.2.2
    simp only [List.map_cons, itemRecords, RawItemsHaveTy, RawItemsClean, e1, f1]
    exact ⟨trivial, ⟨e2, f2⟩, e3, f3⟩
end

mutual
theorem noAny_ty (v : Val) (ty : Ty) (h : NoAny v ty) : v.HasTy ty := by
  match v, ty with
  | .absent, ty => cases ty <;> simp [Val.HasTy]
  | .scalar t x, .scalar t' => simp only [NoAny] at h; simp [Val.HasTy, h.1]
  | .struct vs, .struct tys =>
    simp only [NoAny] at h
    simp only [Val.HasTy]
    exact noAnys_ty vs tys h.2
  | .structs items, .structs tys =>
    simp only [NoAny] at h
    simp only [Val.HasTy]
    exact noAnyItems_ty items tys h.2
  | .scalar _ _, .struct _ | .scalar _ _, .structs _ | .struct _, .scalar _ | .struct _, .structs _
  | .structs _, .scalar _ | .structs _, .struct _ => simp [NoAny] at h
theorem noAnys_ty (vs : List Val) (tys : List Ty) (h : NoAnys vs tys) : FieldsHaveTy vs tys := by
  match vs, tys with
  | [], [] => simp [FieldsHaveTy]
  | [], _ :: _ => simp [NoAnys] at h
  | _ :: _, [] => simp [NoAnys] at h
  | v :: vs, ty :: tys =>
    simp only [NoAnys] at h
    simp only [FieldsHaveTy]
    exact ⟨noAny_ty v ty h.1, noAnys_ty vs tys h.2⟩
theorem noAnyItems_ty (items : List (List Val)) (tys : List Ty) (h : NoAnyItems items tys) : ItemsHaveTy items tys := by
  match items with
  | [] => simp [ItemsHaveTy]
  | vs :: items =>
    simp only [NoAnyItems] at h
    simp only [ItemsHaveTy]
    exact ⟨noAnys_ty vs tys h.1, noAnyItems_ty items tys h.2⟩
end

end Claw.RawConv
