import Verif.Lemmas.Record

/-!
# Programs whose values need not be clean

The encoding of a struct depends only on the values being storable; that they are clean matters only to read them.
-/

namespace Claw

theorem specStructs_stored (items : List (List Val)) : (specStructs items).Stored := by
  simp only [specStructs]; split <;> simp [Val.Stored]

theorem specStruct_stored (vs : List Val) : (specStruct vs).Stored := by
  simp only [specStruct]; split <;> simp [Val.Stored]

mutual
theorem Op.Fits.within {m : Nat} : ∀ {op : Op}, op.Fits m → op.Within m
  | .set _ _ _, h => ⟨h.1, h.2.storable⟩
  | .clear _, h => h
  | .nest _ _ _, h => ⟨h.1, h.2.1, FitsFrom.within h.2.2⟩
  | .nestNil _, h => h
  | .nestList _ _ _, h => ⟨h.1, h.2.1, FitsItems.within h.2.2⟩
  | .peek, h => h
theorem FitsFrom.within {m : Nat} : ∀ {ops : List Op} {r : List Val}, FitsFrom m ops r → WithinFrom m ops r
  | [], _, _ => trivial
  | _ :: _, _, h => ⟨h.1.within, h.2.1, FitsFrom.within h.2.2⟩
theorem FitsItems.within {m : Nat} : ∀ {ps : List (List Op)}, FitsItems m ps → WithinItems m ps
  | [], _ => trivial
  | _ :: _, h => ⟨FitsFrom.within h.1, FitsItems.within h.2⟩
end

theorem Fits.within {m : Nat} {ops : List Op} (h : Fits m ops) : Within m ops := ⟨h.1, h.2.within⟩

mutual
theorem op_within (op : Op) {r : Nat} {s : St} {vs : List Val} (h : Rep r s (encs vs 0))
    (hl : s.idx.length ≤ vs.length) (hm : vs.length ≤ 65536)
    (hfit : op.Within s.idx.length) (hs : 8 + sizes (op.spec vs) < 2 ^ 32) :
    ∃ s', op.run s = .ok s' ∧ Rep r s' (encs (op.spec vs) 0) ∧ SameCfg s s' := by
  match op with
  | .set fn t v =>
    simp only [Op.Within] at hfit
    obtain ⟨hfit, hclean⟩ := hfit
    simp only [Op.spec] at hs ⊢
    obtain ⟨s', h1, h2, h3⟩ := set_rep h hl hm fn hfit t v hclean hs
    exact ⟨s', h1, h2, h3⟩
  | .clear fn =>
    simp only [Op.Within] at hfit
    obtain ⟨sp, h1, h2⟩ := removeField_rep h fn (by omega)
    simp only [Op.run, clearField, Op.spec]
    refine ⟨_, h1, ?_, ⟨by simp, rfl, rfl⟩⟩
    have := encs_set vs 0 fn .absent
    rw [← this]; simpa [Val.enc] using h2
  | .peek =>
    exact ⟨_, h.ensure, h.parsed, ⟨by simp, rfl, rfl⟩⟩
  | .nestNil fn =>
    simp only [Op.Within] at hfit
    simp only [Op.spec] at hs ⊢
    obtain ⟨s', h1, h2, h3, _⟩ := store_rep h hl hm fn hfit .absent trivial [] hs [] (by simp [Val.isAbsent])
    refine ⟨s', ?_, h2, h3⟩
    rw [← h1]; simp [Op.run, setNestedStruct, setOrClear, Val.isAbsent]
  | .nestList fn m progs =>
    simp only [Op.Within] at hfit
    obtain ⟨hfn, hm', hf⟩ := hfit
    simp only [Op.spec] at hs ⊢
    obtain ⟨ds, hrun, hseg⟩ := items_within m hm' progs hf
    have hsz : 8 + itemSizes (specItems m progs) < 2 ^ 40 := by
      cases hp : specItems m progs with
      | nil => simp [itemSizes]
      | cons vs' items =>
        have := sizes_ge (vs.set fn (specStructs (specItems m progs))) fn
        rw [List.getD_eq_getElem?_getD, List.getElem?_set_self (by omega)] at this
        simp only [Option.getD_some, specStructs, hp, List.isEmpty_cons, Bool.false_eq_true,
          if_false, Val.size] at this
        simp only [specStructs, hp, List.isEmpty_cons, Bool.false_eq_true, if_false] at hs
        omega
    obtain ⟨s', h1, h2, h3, _⟩ := store_list_rep h hl hm fn hfn (specStructs (specItems m progs))
      (specStructs_stored _) (patchStructs ds) hs (hdr fn FTListStructs (8 + (encItems (specItems m progs) 0).length) ++
        encItems (specItems m progs) 0) (by
        intro hz; rw [isAbsent_specStructs] at hz; simp [specStructs, hz, Val.enc])
    refine ⟨s', ?_, h2, h3⟩
    simp only [Op.run, hrun, Res.ok_bind, setListStructs]
    rw [structsBlob_eq fn ds _ hseg hsz, ← h1, isAbsent_specStructs]
    congr 1
    rw [(itemSegs_sum ds _ hseg).2]
    cases specItems m progs <;> simp
  | .nest fn m ops =>
    simp only [Op.Within] at hfit
    obtain ⟨hfn, hm', hf⟩ := hfit
    simp only [Op.spec] at hs ⊢
    obtain ⟨c0, hc0, hr0, hlen0, _⟩ := new_rep m
    obtain ⟨c, hcrun, hcr, hcfg⟩ := ops_within ops hr0 (by simp [hlen0]) (by simp [hm'])
      (by rw [hlen0]; exact hf)
    have hclen : (specOps ops (List.replicate m .absent)).length = m := by
      rw [specOps_length]; simp
    have htot := hcr.small
    obtain ⟨s', h1, h2, h3, _⟩ := store_rep h hl hm fn hfn
      (specStruct (specOps ops (List.replicate m .absent)))
      (specStruct_stored _) c.seg.data hs
      (hdr fn FTStruct (8 + (encs (specOps ops (List.replicate m .absent)) 0).flatten.length)
        ++ (encs (specOps ops (List.replicate m .absent)) 0).flatten) (by
        intro hz; rw [isAbsent_specStruct] at hz; simp [specStruct, hz, Val.enc, total])
    refine ⟨s', ?_, h2, h3⟩
    simp only [Op.run, hc0, Res.ok_bind, hcrun, setNestedStruct]
    rw [hcr.data, nestedBlob_eq _ _ _ _ (by simp only [total] at htot; omega), ← hcr.data]
    rw [← h1]
    congr 1
    rw [isAbsent_specStruct]
    have hdl : c.seg.data.length = 8 + sizes (specOps ops (List.replicate m .absent)) := by
      rw [hcr.data, List.length_append, encs_flatten_length, hdr_length]
    have hz := sizes_eq_zero (specOps ops (List.replicate m .absent))
    by_cases h0 : sizes (specOps ops (List.replicate m .absent)) = 0
    · rw [hz.mp h0]; simp [HeaderSize]; omega
    · have : (specOps ops (List.replicate m .absent)).all Val.isAbsent = false := by
        cases hh : (specOps ops (List.replicate m .absent)).all Val.isAbsent with
        | false => rfl
        | true => exact absurd (hz.mpr hh) h0
      rw [this]; simp [HeaderSize]; omega
theorem ops_within (ops : List Op) {r : Nat} {s : St} {vs : List Val} (h : Rep r s (encs vs 0))
    (hl : s.idx.length ≤ vs.length) (hm : vs.length ≤ 65536)
    (hfit : WithinFrom s.idx.length ops vs) :
    ∃ s', runOps ops s = .ok s' ∧ Rep r s' (encs (specOps ops vs) 0) ∧ SameCfg s s' := by
  match ops with
  | [] => exact ⟨s, by simp [runOps], by simpa [specOps] using h, SameCfg.refl s⟩
  | op :: ops =>
    simp only [WithinFrom] at hfit
    obtain ⟨s1, e1, r1, c1⟩ := op_within op h hl hm hfit.1 hfit.2.1
    obtain ⟨s2, e2, r2, c2⟩ := ops_within ops r1 (by rw [spec_length, c1.len]; exact hl)
      (by rw [spec_length]; exact hm) (by rw [c1.len]; exact hfit.2.2)
    refine ⟨s2, ?_, by simpa [specOps] using r2, c1.trans c2⟩
    simp [runOps, e1, e2]
theorem items_within (m : Nat) (hm : m ≤ 65536) (progs : List (List Op)) (hf : WithinItems m progs) :
    ∃ ds, runItems m progs = .ok ds ∧ ItemSegs ds (specItems m progs) := by
  match progs with
  | [] => exact ⟨[], by simp [runItems], by simp [specItems, ItemSegs]⟩
  | p :: ps =>
    simp only [WithinItems] at hf
    obtain ⟨c0, hc0, hr0, hlen0, _⟩ := new_rep m
    obtain ⟨c, hcrun, hcr, hcfg⟩ := ops_within p hr0 (by simp [hlen0]) (by simp [hm])
      (by rw [hlen0]; exact hf.1)
    obtain ⟨ds, h1, h2⟩ := items_within m hm ps hf.2
    refine ⟨c.seg.data :: ds, ?_, ?_⟩
    · simp [runItems, hc0, hcrun, h1]
    · simp only [specItems, ItemSegs]; exact ⟨⟨0, hcr.data⟩, h2⟩
end

/-! ### Records of such programs -/

mutual
/-- `Val.Canon` without cleanness. -/
def Val.Sound : Val → Prop
  | .absent => True
  | .scalar t v => t.isZero v = false
  | .struct vs => vs.length ≤ 65536 ∧ vs.all Val.isAbsent = false ∧ Sounds vs
  | .structs items => items ≠ [] ∧ ItemsSound items
def Sounds : List Val → Prop
  | [] => True
  | v :: vs => v.Sound ∧ Sounds vs
def ItemsSound : List (List Val) → Prop
  | [] => True
  | vs :: items => vs.length ≤ 65536 ∧ Sounds vs ∧ ItemsSound items
end

mutual
theorem Val.Sound.canon : ∀ {v : Val}, v.Sound → v.Tidy → v.Canon
  | .absent, _, _ => trivial
  | .scalar _ _, h, t => ⟨h, t⟩
  | .struct _, h, t => ⟨h.1, h.2.1, Sounds.canon h.2.2 t⟩
  | .structs _, h, t => ⟨h.1, ItemsSound.canon h.2 t⟩
theorem Sounds.canon : ∀ {vs : List Val}, Sounds vs → Tidies vs → Canons vs
  | [], _, _ => trivial
  | _ :: _, h, t => ⟨h.1.canon t.1, Sounds.canon h.2 t.2⟩
theorem ItemsSound.canon : ∀ {items : List (List Val)}, ItemsSound items → ItemsTidy items → ItemsCanon items
  | [], _, _ => trivial
  | _ :: _, h, t => ⟨h.1, Sounds.canon h.2.1 t.1, ItemsSound.canon h.2.2 t.2⟩
end

theorem Sounds.set {vs : List Val} (h : Sounds vs) (i : Nat) (v : Val) (hv : v.Sound) : Sounds (vs.set i v) := by
  induction vs generalizing i with
  | nil => simpa using h
  | cons w vs ih =>
    cases i with
    | zero => exact ⟨hv, h.2⟩
    | succ i => exact ⟨h.1, ih h.2 i⟩

theorem sounds_replicate (m : Nat) : Sounds (List.replicate m .absent) := by
  induction m with
  | zero => simp [Sounds]
  | succ m ih => simp only [List.replicate_succ]; exact ⟨trivial, ih⟩

mutual
theorem op_sound (m : Nat) (op : Op) (vs : List Val) (hv : Sounds vs) (h : op.Within m) : Sounds (op.spec vs) := by
  match op with
  | .set fn t v =>
    simp only [Op.spec]
    refine hv.set _ _ ?_
    simp only [specScalar]; cases h : t.isZero v <;> simp [Val.Sound, h]
  | .clear fn => simp only [Op.spec]; exact hv.set _ _ trivial
  | .nestNil fn => simp only [Op.spec]; exact hv.set _ _ trivial
  | .peek => simpa only [Op.spec] using hv
  | .nest fn m' ops =>
    simp only [Op.Within] at h
    simp only [Op.spec]
    refine hv.set _ _ ?_
    have := ops_sound m' ops _ (sounds_replicate m') h.2.2
    simp only [specStruct]
    cases h' : (specOps ops (List.replicate m' .absent)).all Val.isAbsent <;> simp [Val.Sound, h', this, specOps_length, h.2.1]
  | .nestList fn m' progs =>
    simp only [Op.Within] at h
    simp only [Op.spec]
    refine hv.set _ _ ?_
    have := items_sound m' h.2.1 progs h.2.2
    cases hp : specItems m' progs with
    | nil => simp [specStructs, Val.Sound]
    | cons a b => rw [hp] at this; simpa [specStructs, Val.Sound] using this
theorem ops_sound (m : Nat) (ops : List Op) (vs : List Val) (hv : Sounds vs) (h : WithinFrom m ops vs) : Sounds (specOps ops vs) := by
  match ops with
  | [] => simpa [specOps] using hv
  | op :: ops =>
    simp only [WithinFrom] at h
    simp only [specOps]
    exact ops_sound m ops _ (op_sound m op vs hv h.1) h.2.2
theorem items_sound (m : Nat) (hm : m ≤ 65536) (progs : List (List Op)) (h : WithinItems m progs) : ItemsSound (specItems m progs) := by
  match progs with
  | [] => simp [specItems, ItemsSound]
  | p :: ps =>
    simp only [WithinItems] at h
    simp only [specItems, ItemsSound]
    exact ⟨by rw [specOps_length]; simpa using hm, ops_sound m p _ (sounds_replicate m) h.1, items_sound m hm ps h.2⟩
end

/-- A program whose final record is clean. -/
theorem tidy_rep (m : Nat) (ops : List Op) (h : Within m ops) (ht : Tidies (specRun m ops)) {s0 : St} (hr : Rep 0 s0 (encs (List.replicate m .absent) 0))
    (hl : s0.idx.length = m) : ∃ s, runOps ops s0 = .ok s ∧ Rep 0 s (encs (specOps ops (List.replicate m .absent)) 0) ∧ SameCfg s0 s ∧
      Canons (specOps ops (List.replicate m .absent)) := by
  obtain ⟨s, h1, h2, h3⟩ := ops_within ops hr (by simp [hl]) (by simpa using h.1) (by rw [hl]; exact h.2)
  exact ⟨s, h1, h2, h3, (ops_sound m ops _ (sounds_replicate m) h.2).canon (by simpa [specRun] using ht)⟩

mutual
theorem Val.Canon.tidy : ∀ {v : Val}, v.Canon → v.Tidy
  | .absent, _ => trivial
  | .scalar _ _, h => h.2
  | .struct _, h => Canons.tidy h.2.2
  | .structs _, h => ItemsCanon.tidy h.2
theorem Canons.tidy : ∀ {vs : List Val}, Canons vs → Tidies vs
  | [], _ => trivial
  | _ :: _, h => ⟨h.1.tidy, Canons.tidy h.2⟩
theorem ItemsCanon.tidy : ∀ {items : List (List Val)}, ItemsCanon items → ItemsTidy items
  | [], _ => trivial
  | _ :: _, h => ⟨Canons.tidy h.2.1, ItemsCanon.tidy h.2.2⟩
end

theorem Fits.tidy {m : Nat} {ops : List Op} (h : Fits m ops) : Tidies (specRun m ops) := by
  obtain ⟨c0, hc0, hr0, hlen0, _⟩ := new_rep m
  obtain ⟨_, _, _, _, hc⟩ := ops_rep ops hr0 (by simp [hlen0]) (by simpa using h.1) (canons_replicate m) (by rw [hlen0]; exact h.2)
  exact hc.tidy

end Claw
