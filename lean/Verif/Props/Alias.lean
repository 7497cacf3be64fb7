import Verif.Lemmas.View

/-!
# C19: a nested struct obtained from a decoded parent

The statements speak of a record that was marshalled, a parent decoded from the message, the nested struct
obtained from one of its fields, and any calls on that nested struct.
-/

set_option linter.unusedSimpArgs false

namespace Claw

theorem padVals_getD (n : Nat) (vs : List Val) (i : Nat) : (padVals n vs).getD i .absent = vs.getD i .absent := by
  simp only [padVals, List.getD_eq_getElem?_getD]
  by_cases hi : i < vs.length
  · rw [List.getElem?_append_left hi]
  · rw [List.getElem?_append_right (by omega), List.getElem?_eq_none (l := vs) (by omega), List.getElem?_replicate]
    split <;> rfl

theorem padVals_set (n : Nat) (vs : List Val) (i : Nat) (x : Val) (hi : i < vs.length) :
    (padVals n vs).set i x = padVals n (vs.set i x) := by
  simp only [padVals, List.length_set]
  rw [List.set_append_left _ _ hi]

/-- A record was sent and decoded, and the nested struct of field `fn` obtained. -/
theorem decoded_view (m : Nat) (ops : List Op) (n : Nat) (extra : Bytes) (fn : Nat) (cvs : List Val)
    (hfit : Fits m ops) (hfn : fn < n) (hv : (specRun m ops).getD fn .absent = .struct cvs) :
    ∃ s msg fresh p v, run m ops = .ok s ∧ s.marshal = .ok (msg, s) ∧ St.new n = .ok fresh ∧
      fresh.unmarshal msg extra = some p ∧ View.get p fn cvs.length = .ok (some v) ∧
      Rep 0 p (encs (padVals n (specRun m ops)) 0) ∧ Canons (specRun m ops) ∧ p.idx.length = n ∧
      p.isSetEnabled = false ∧
      ViewInv { p with idx := idxOf p.idx.length (encs (padVals n (specRun m ops)) 0), parsed := true }
        (offsetOf (encs (padVals n (specRun m ops)) 0) fn) (blob (encs (padVals n (specRun m ops)) 0) fn).length v ∧
      v.shared = true ∧ Rep fn v.child (encs cvs 0) ∧ v.child.idx.length = cvs.length ∧
      (blob (encs (padVals n (specRun m ops)) 0) fn).length = 8 + sizes cvs ∧ fn < m ∧
      cvs.length ≤ 65536 ∧ Canons cvs ∧
      v.child.seg.spare = ((encs (padVals n (specRun m ops)) 0).drop (fn + 1)).flatten ++ extra := by
  obtain ⟨s0, h0, hr, hl, he⟩ := new_rep m
  obtain ⟨s, h1, h2, h3, h4⟩ := ops_rep ops hr (by rw [hl]; simp) (by simpa using hfit.1)
    (canons_replicate m) (by rw [hl]; exact hfit.2)
  change Rep 0 s (encs (specRun m ops) 0) at h2
  change Canons (specRun m ops) at h4
  obtain ⟨t0, g0, _, gl, ge⟩ := new_rep n
  have hvl : (specRun m ops).length = m := by simp [specRun, specOps_length]
  obtain ⟨p, hu, hrp, hlp, hep⟩ := unmarshal_rep h2.wf h2.small 0 (by omega) t0 n gl
    (by intro i hi _; have e := new_eq n; rw [g0] at e; simp at e; rw [e]; simp [hi]) [] extra
  rw [List.append_nil] at hu
  have hseg : p.seg.spare = extra := by
    have hpd := hrp.data
    simp only [total_padTo, padTo_flatten] at hpd
    have hall : p.seg.data ++ p.seg.spare
        = (hdr 0 FTStruct (total (encs (specRun m ops) 0)) ++ (encs (specRun m ops) 0).flatten) ++ extra := by
      simp only [St.unmarshal] at hu
      split at hu
      · simp at hu
      · split at hu
        · simp at hu
        · split at hu
          · simp at hu
          · split at hu
            · simp at hu
            · rw [← Option.some.inj hu]
              simp only [← List.append_assoc, List.take_append_drop]
    rw [hpd] at hall
    exact List.append_cancel_left hall
  have hmar := marshal_rep h2 (h3.enabled.symm ▸ he.1)
  rw [padTo_encs] at hrp
  have hcv := (show Canons (specRun m ops) from h4).get fn
  rw [hv] at hcv
  obtain ⟨c1, _, c3⟩ := hcv
  have hfm : fn < m := by
    rcases Nat.lt_or_ge fn m with h | h
    · exact h
    · rw [List.getD_eq_getElem?_getD, List.getElem?_eq_none (by omega)] at hv; simp at hv
  have hblob : blob (encs (padVals n (specRun m ops)) 0) fn = hdr fn FTStruct (total (encs cvs 0)) ++ (encs cvs 0).flatten := by
    rw [blob_encs, padVals_getD, hv, Nat.zero_add]; rfl
  have hwf : WFs (encs cvs 0) := by
    intro i
    rw [blob_encs, Nat.zero_add]
    by_cases hi : i < cvs.length
    · refine enc_wf i (by omega) ?_ (c3.get i).stored
      have h5 := sizes_ge cvs i
      have h6 := hrp.small
      have h7 := offsetOf_le_total (encs (padVals n (specRun m ops)) 0) fn
      rw [hblob] at h7
      simp only [List.length_append, hdr_length, encs_flatten_length] at h7
      omega
    · left; rw [List.getD_eq_getElem?_getD, List.getElem?_eq_none (by omega)]; rfl
  obtain ⟨v, v1, v2, v3, v4, v5, v6⟩ := view_get hrp cvs.length (by omega) hblob hwf
  refine ⟨s, _, t0, p, v, by simp [run, h0, h1], hmar, g0, hu, v1, hrp, h4, hlp, by rw [hep]; exact ge.1, v2, v3,
    ?_, v6, ?_, hfm, c1, c3, ?_⟩
  · rw [padTo_self (by rw [← encs_length cvs 0]; omega)] at v5; exact v5
  · rw [hblob]; simp only [List.length_append, hdr_length, encs_flatten_length]
  · rw [v4]
    simp only
    have hlen := hrp.len
    obtain ⟨sp1, _⟩ := split_at (encs (padVals n (specRun m ops)) 0) fn [] (by omega)
    rw [hrp.data, hseg]
    rw [sp1]
    have : (hdr 0 FTStruct (total (encs (padVals n (specRun m ops)) 0)) ++
        (((encs (padVals n (specRun m ops)) 0).take fn).flatten ++ blob (encs (padVals n (specRun m ops)) 0) fn ++
        ((encs (padVals n (specRun m ops)) 0).drop (fn + 1)).flatten) ++ extra)
      = (hdr 0 FTStruct (total (encs (padVals n (specRun m ops)) 0)) ++
        (((encs (padVals n (specRun m ops)) 0).take fn).flatten ++ blob (encs (padVals n (specRun m ops)) 0) fn)) ++
        (((encs (padVals n (specRun m ops)) 0).drop (fn + 1)).flatten ++ extra) := by simp only [List.append_assoc]
    rw [this, List.drop_left' (by simp only [offsetOf, List.length_append, hdr_length]; omega)]

/-- **C19, partial** Calls on a nested struct obtained from a decoded parent change no other field of the
parent, provided the nested struct is never longer than it was when decoded. Missing: nested structs that
grow (`C19_growth_corrupts`). -/
theorem C19_not_larger_partial (m : Nat) (ops : List Op) (tys : List Ty) (extra : Bytes) (fn : Nat)
    (cvs : List Val) (cops : List Op) (hfit : Fits m ops) (hty : FieldsHaveTy (specRun m ops) tys)
    (hn : tys.length ≤ 65536) (hfn : fn < tys.length)
    (hv : (specRun m ops).getD fn .absent = .struct cvs) (hcfit : FitsFrom cvs.length cops cvs)
    (hsz : ∀ k, sizes (specOps (cops.take k) cvs) ≤ sizes cvs) :
    ∃ s msg fresh p v v', run m ops = .ok s ∧ s.marshal = .ok (msg, s) ∧ St.new tys.length = .ok fresh ∧
      fresh.unmarshal msg extra = some p ∧ View.get p fn cvs.length = .ok (some v) ∧ View.run cops v = .ok v' ∧
      ∀ i ty, tys[i]? = some ty → i ≠ fn →
        ty.read v'.parent i = .ok (ty.view ((specRun m ops).getD i .absent)) := by
  obtain ⟨s, msg, fresh, p, v, a1, a2, a3, a4, a5, a6, a7, a8, a9, a10, a11, a12, a13, a14, a15, a16, a17, _⟩ :=
    decoded_view m ops tys.length extra fn cvs hfit hfn hv
  obtain ⟨v', b1, b2, _⟩ := view_run cops a10 a12 (by omega) a16 a17 (by rw [a13]; exact hcfit)
    (Or.inl (fun k => by have := hsz k; omega))
  refine ⟨s, msg, fresh, p, v, v', a1, a2, a3, a4, a5, b1, ?_⟩
  intro i ty hi hne
  have hvl : (specRun m ops).length = m := by simp [specRun, specOps_length]
  have := siblings a6 (canons_padVals a7 _) (by
      have := hfit.1; simp only [padVals, List.length_append, List.length_replicate, hvl]; omega)
    b2 (by rw [a8]; exact (List.getElem?_eq_some_iff.mp hi).1) hne (ty := ty)
    (by rw [padVals_getD]; exact hty.get i ty hi)
  rw [this, padVals_getD]

/-- **C19, partial** The same for any calls at all on the nested struct of the last field that is present,
decoded from a buffer without spare capacity: when such a struct grows it moves away. -/
theorem C19_last_field_partial (m : Nat) (ops : List Op) (tys : List Ty) (fn : Nat)
    (cvs : List Val) (cops : List Op) (hfit : Fits m ops) (hty : FieldsHaveTy (specRun m ops) tys)
    (hn : tys.length ≤ 65536) (hfn : fn < tys.length)
    (hv : (specRun m ops).getD fn .absent = .struct cvs) (hcfit : FitsFrom cvs.length cops cvs)
    (hlast : ∀ i, fn < i → (specRun m ops).getD i .absent = .absent) :
    ∃ s msg fresh p v v', run m ops = .ok s ∧ s.marshal = .ok (msg, s) ∧ St.new tys.length = .ok fresh ∧
      fresh.unmarshal msg [] = some p ∧ View.get p fn cvs.length = .ok (some v) ∧ View.run cops v = .ok v' ∧
      ∀ i ty, tys[i]? = some ty → i ≠ fn →
        ty.read v'.parent i = .ok (ty.view ((specRun m ops).getD i .absent)) := by
  obtain ⟨s, msg, fresh, p, v, a1, a2, a3, a4, a5, a6, a7, a8, a9, a10, a11, a12, a13, a14, a15, a16, a17, a18⟩ :=
    decoded_view m ops tys.length [] fn cvs hfit hfn hv
  have hnil : ((encs (padVals tys.length (specRun m ops)) 0).drop (fn + 1)).flatten = [] := by
    rw [List.flatten_eq_nil_iff]
    intro l hl
    obtain ⟨j, hj, rfl⟩ := List.mem_iff_getElem.mp hl
    rw [List.getElem_drop]
    have h1 := blob_encs (padVals tys.length (specRun m ops)) 0 (fn + 1 + j)
    rw [padVals_getD, hlast _ (by omega)] at h1
    simp only [blob, Val.enc, List.getD_eq_getElem?_getD] at h1
    rw [List.getElem?_eq_getElem (by rw [List.length_drop] at hj; omega)] at h1
    exact h1
  rw [hnil] at a18
  have hcap : v.child.seg.cap = (blob (encs (padVals tys.length (specRun m ops)) 0) fn).length := by
    rw [a14]
    simp only [Seg.cap, a18, a12.data, List.length_append, hdr_length, encs_flatten_length, List.length_nil]
    omega
  obtain ⟨v', b1, b2, _⟩ := view_run cops a10 a12 (by omega) a16 a17 (by rw [a13]; exact hcfit)
    (Or.inr (fun _ => hcap))
  refine ⟨s, msg, fresh, p, v, v', a1, a2, a3, a4, a5, b1, ?_⟩
  intro i ty hi hne
  have hvl : (specRun m ops).length = m := by simp [specRun, specOps_length]
  have := siblings a6 (canons_padVals a7 _) (by
      have := hfit.1; simp only [padVals, List.length_append, List.length_replicate, hvl]; omega)
    b2 (by rw [a8]; exact (List.getElem?_eq_some_iff.mp hi).1) hne (ty := ty)
    (by rw [padVals_getD]; exact hty.get i ty hi)
  rw [this, padVals_getD]

/-- **C19, partial** When every call keeps the nested struct at its size (changing numbers, or texts of the
same length), the edits are the parent's: every getter of the parent and every receiver of the parent's
message sees the record with exactly that nested struct changed. Missing: calls that change the size
(`C19_shrink_misread`, `C19_growth_not_seen`). -/
theorem C19_same_size_partial (m : Nat) (ops : List Op) (tys : List Ty) (extra extra' : Bytes) (fn : Nat)
    (cvs : List Val) (cops : List Op) (hfit : Fits m ops)
    (hn : tys.length ≤ 65536) (hfn : fn < tys.length)
    (hv : (specRun m ops).getD fn .absent = .struct cvs) (hcfit : FitsFrom cvs.length cops cvs)
    (hty : FieldsHaveTy ((specRun m ops).set fn (.struct (specOps cops cvs))) tys)
    (hsz : ∀ k, sizes (specOps (cops.take k) cvs) = sizes cvs) :
    ∃ s msg fresh p v v' msg' q, run m ops = .ok s ∧ s.marshal = .ok (msg, s) ∧ St.new tys.length = .ok fresh ∧
      fresh.unmarshal msg extra = some p ∧ View.get p fn cvs.length = .ok (some v) ∧ View.run cops v = .ok v' ∧
      readFields tys v'.parent 0
        = .ok (viewFields tys ((specRun m ops).set fn (.struct (specOps cops cvs)))) ∧
      v'.parent.marshal = .ok (msg', v'.parent) ∧ fresh.unmarshal msg' extra' = some q ∧
      readFields tys q 0 = .ok (viewFields tys ((specRun m ops).set fn (.struct (specOps cops cvs)))) := by
  obtain ⟨s, msg, fresh, p, v, a1, a2, a3, a4, a5, a6, a7, a8, a9, a10, a11, a12, a13, a14, a15, a16, a17, _⟩ :=
    decoded_view m ops tys.length extra fn cvs hfit hfn hv
  obtain ⟨v', b1, b2, b3, b4, b5⟩ := view_run cops a10 a12 (by omega) a16 a17 (by rw [a13]; exact hcfit)
    (Or.inl (fun k => by have := hsz k; omega))
  have hsh := b5 (fun k => by have := hsz k; omega) a11
  have hfull := hsz cops.length
  rw [List.take_length] at hfull
  have hm := hfit.1
  obtain ⟨r1, r2, r3⟩ := view_rep a6 (by omega) (by omega) b2 hsh b3 (by omega)
  have hvl : (specRun m ops).length = m := by simp [specRun, specOps_length]
  rw [padVals_set _ _ _ _ (by omega)] at r1
  have hcan : Canons ((specRun m ops).set fn (.struct (specOps cops cvs))) := by
    refine a7.set _ _ ⟨by rw [specOps_length]; exact a16, ?_, b4⟩
    have hc := a7.get fn
    rw [hv] at hc
    cases hall : (specOps cops cvs).all Val.isAbsent with
    | false => rfl
    | true =>
      exfalso
      have h1 : sizes (specOps cops cvs) = 0 := (sizes_eq_zero _).mpr hall
      have h2 := (sizes_eq_zero cvs).mp (by omega)
      rw [hc.2.1] at h2; simp at h2
  have hread : ∀ (q : St), Rep 0 q (encs (padVals tys.length ((specRun m ops).set fn (.struct (specOps cops cvs)))) 0) →
      q.idx.length = tys.length →
      readFields tys q 0 = .ok (viewFields tys ((specRun m ops).set fn (.struct (specOps cops cvs)))) := by
    intro q hq hl
    rw [← padTo_encs] at hq
    rw [read_fields tys hq hcan (by simp; omega) 0 (by omega)
      (by intro j ty hj; rw [Nat.zero_add]; exact hty.get j ty hj), viewFields_eq_map]
    simp
  obtain ⟨t0, g0, _, gl, ge⟩ := new_rep tys.length
  rw [a3] at g0
  have g0 := Res.ok.inj g0
  subst g0
  obtain ⟨q, hu, hrq, hlq, _⟩ := unmarshal_rep r1.wf r1.small 0 (by omega) fresh tys.length gl
    (by intro i hi _; have e := new_eq tys.length; rw [a3] at e; simp at e; rw [e]; simp [hi]) [] extra'
  rw [List.append_nil] at hu
  rw [padTo_self (by have := r1.len; omega)] at hrq
  exact ⟨s, msg, fresh, p, v, v', _, q, a1, a2, a3, a4, a5, b1, hread _ r1 (by omega),
    marshal_rep r1 (by rw [r3]; exact a9), hu, hread _ hrq hlq⟩

/-! ### Cases that meet the hypotheses, and what goes wrong otherwise -/

/-- A parent with a nested struct between a text and a number. -/
def aliasOps : List Op :=
  [.set 0 .str [104, 105], .nest 1 3 [.set 0 .u8 7, .set 2 .str [97, 98, 99]], .set 2 .u64 5]

def aliasTys : List Ty := [.scalar .str, .struct [.scalar .u8, .scalar .u8, .scalar .str], .scalar .u64]

theorem aliasOps_spec : specRun 3 aliasOps = [.scalar .str [104, 105],
    .struct [.scalar .u8 7, .absent, .scalar .str [97, 98, 99]], .scalar .u64 5] := by
  simp [specRun, aliasOps, specOps, Op.spec, specScalar, specStruct, STy.isZero, List.replicate, Val.isAbsent]

theorem aliasOps_fits : Fits 3 aliasOps := by
  refine ⟨by omega, ?_⟩
  simp +decide [FitsFrom, aliasOps, Op.Fits, Op.spec, specOps, specScalar, specStruct, STy.isZero, List.replicate,
    Val.isAbsent, sizes, Val.size, scalarSize, STy.Clean, paddingNeeded, STy.Storable]

/-- Clear a field of the child, then store a longer text in its place. -/
example := C19_not_larger_partial 3 aliasOps aliasTys [1, 2, 3] 1
  [.scalar .u8 7, .absent, .scalar .str [97, 98, 99]] [.clear 0, .set 2 .str [97, 98, 99, 100], .peek, .set 1 .u8 3]
  aliasOps_fits (by rw [aliasOps_spec]; simp [FieldsHaveTy, aliasTys, Val.HasTy]) (by decide) (by decide)
  (by rw [aliasOps_spec]; rfl)
  (by simp +decide [FitsFrom, Op.Fits, Op.spec, specScalar, STy.isZero, sizes, Val.size, scalarSize, STy.Clean, paddingNeeded, STy.Storable])
  (by
    intro k
    match k with
    | 0 | 1 | 2 | 3 | _ + 4 =>
      simp +decide [specOps, Op.spec, specScalar, STy.isZero, sizes, Val.size, scalarSize, paddingNeeded, STy.Storable])

/-- Change a number and a text of the child. -/
example := C19_same_size_partial 3 aliasOps aliasTys [] [] 1
  [.scalar .u8 7, .absent, .scalar .str [97, 98, 99]] [.set 0 .u8 200, .set 2 .str [120, 121, 122, 123]]
  aliasOps_fits (by decide) (by decide) (by rw [aliasOps_spec]; rfl)
  (by simp +decide [FitsFrom, Op.Fits, Op.spec, specScalar, STy.isZero, sizes, Val.size, scalarSize, STy.Clean, paddingNeeded, STy.Storable])
  (by
    rw [aliasOps_spec]
    simp [FieldsHaveTy, aliasTys, Val.HasTy, specOps, Op.spec, specScalar, STy.isZero])
  (by
    intro k
    match k with
    | 0 | 1 | _ + 2 =>
      simp +decide [specOps, Op.spec, specScalar, STy.isZero, sizes, Val.size, scalarSize, paddingNeeded, STy.Storable])

/-- The nested struct is last; it grows. -/
example := C19_last_field_partial 2 [.set 0 .u8 5, .nest 1 2 [.set 0 .u8 7]] [.scalar .u8, .struct [.scalar .u8, .scalar .u64]] 1
  [.scalar .u8 7, .absent] [.set 1 .u64 900]
  (by
    refine ⟨by omega, ?_⟩
    simp +decide [FitsFrom, Op.Fits, Op.spec, specOps, specScalar, specStruct, STy.isZero, List.replicate,
      Val.isAbsent, sizes, Val.size, scalarSize, STy.Clean, STy.Storable])
  (by
    simp [specRun, FieldsHaveTy, Val.HasTy, specOps, Op.spec, specScalar, specStruct, STy.isZero, List.replicate,
      Val.isAbsent])
  (by decide) (by decide)
  (by simp [specRun, specOps, Op.spec, specScalar, specStruct, STy.isZero, List.replicate, Val.isAbsent])
  (by simp +decide [FitsFrom, Op.Fits, Op.spec, specScalar, STy.isZero, sizes, Val.size, scalarSize, STy.Clean, STy.Storable])
  (by
    intro i hi
    match i, hi with
    | i + 2, _ => simp [specRun, specOps, Op.spec, specScalar, specStruct, STy.isZero, List.replicate, Val.isAbsent])

/-- Send a record of `n` fields, decode it, make calls on the nested struct of field `fn`. -/
def nestedEdit (n : Nat) (ops : List Op) (fn cm : Nat) (cops : List Op) : Res (St × View) := do
  let s ← run n ops
  let (msg, _) ← s.marshal
  let fresh ← St.new n
  let p ← Res.ofOption (fresh.unmarshal msg [])
  let v ← View.get p fn cm
  let v ← Res.ofOption v
  let v' ← View.run cops v
  return (p, v')

/-- Decode the message of a struct. -/
def resend (n : Nat) (s : St) : Res St := do
  let (msg, _) ← s.marshal
  let fresh ← St.new n
  Res.ofOption (fresh.unmarshal msg [])

/-- **C19, the property fails** The parent has a nested struct in field 0 and the number 5 in field 1. Setting a
further field of the nested struct to 9 turns the parent's number into 9. -/
theorem C19_growth_corrupts :
    (do let (p, v) ← nestedEdit 2 [.nest 0 2 [.set 0 .u8 7], .set 1 .u8 5] 0 2 [.set 1 .u8 9]
        let before ← getUint8 p 1
        let after ← getUint8 v.parent 1
        return (before, after)) = .ok (5, 9) := by decide +kernel

/-- **C19, the property fails on the wire** Clearing a field of the nested struct leaves its last bytes behind in
the parent's array: the parent still reads 0 in its field 2, the receiver of its message reads 9. -/
theorem C19_shrink_misread :
    (do let (_, v) ← nestedEdit 3 [.nest 0 3 [.set 0 .u8 7, .set 2 .u8 9], .set 1 .u8 5] 0 3 [.clear 0]
        let sender ← getUint8 v.parent 2
        let q ← resend 3 v.parent
        let receiver ← getUint8 q 2
        return (sender, receiver)) = .ok (0, 9) := by decide +kernel

/-- What a growing child does when there is no room: it moves to an array of its own, and neither this edit nor
a later one is seen in the parent. -/
theorem C19_growth_not_seen :
    (do let (_, v) ← nestedEdit 2 [.set 0 .u8 5, .nest 1 2 [.set 0 .u8 7]] 1 2 [.set 1 .u8 9, .set 0 .u8 8]
        let own ← getUint8 v.child 0
        let q ← resend 2 v.parent
        let c ← getNestedStruct q 1 2
        let c ← Res.ofOption c
        let a ← getUint8 c 0
        let b ← getUint8 c 1
        return (own, a, b)) = .ok (8, 7, 0) := by decide +kernel

end Claw
