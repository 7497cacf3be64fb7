import Verif.Spec.IsSet
import Verif.Lemmas.Same
import Verif.Lemmas.Within
import Verif.Lemmas.Hostile
import Verif.Lemmas.Bits

/-!
# IsSet tracking
-/

namespace Claw

theorem testBit_or_shift (x : UInt8) (a b : Nat) (ha : a < 8) (hb : b < 8) :
    (x ||| (1 <<< UInt8.ofNat a)).toNat.testBit b = (x.toNat.testBit b || decide (a = b)) := by
  have key : ∀ (a b : Fin 8) (x : Fin 256),
      (UInt8.ofNat x.val ||| (1 <<< UInt8.ofNat a.val)).toNat.testBit b.val
      = ((UInt8.ofNat x.val).toNat.testBit b.val || decide (a.val = b.val)) := by
    decide +kernel
  have := key ⟨a, ha⟩ ⟨b, hb⟩ ⟨x.toNat, x.toNat_lt⟩
  simpa using this

theorem testBit_or_top (x : UInt8) (b : Nat) (hb : b < 8) :
    (x ||| 0x80).toNat.testBit b = (x.toNat.testBit b || decide (b = 7)) := by
  have := testBit_or_shift x 7 b (by omega) hb
  rw [show (1 : UInt8) <<< UInt8.ofNat 7 = 0x80 by decide] at this
  rw [this]; congr 1; simp [eq_comm]

/-- The bits before the continuation bits are put in. -/
structure RawBits (m : Nat) (p : Nat → Bool) (b : Bytes) : Prop where
  len : b.length = up8 (isSetBytes m)
  bit : ∀ (j k : Nat) (x : UInt8), b[j]? = some x → k < 8 →
    x.toNat.testBit k = (decide (k < 7) && decide (7 * j + k < m) && p (7 * j + k))

theorem isSetBytes_eq (m : Nat) : (if (m + 6) / 7 = 0 then 1 else (m + 6) / 7) = isSetBytes m := by
  simp only [isSetBytes]; split <;> omega

theorem enable_bits (s : St) (h : s.isSetBits = none) :
    ∃ b, (s.setIsSetEnabled true).isSetBits = some b ∧ RawBits s.idx.length (fun _ => false) b ∧
      (s.setIsSetEnabled true) = { s with isSetEnabled := true, isSetBits := some b } := by
  refine ⟨zeros (up8 (isSetBytes s.idx.length)), ?_, ⟨by simp [zeros], ?_⟩, ?_⟩
  · simp only [St.setIsSetEnabled, h, isSetBytes_eq, up8]; simp
  · intro j k x hx _
    have : x = 0 := by
      simp only [zeros, List.getElem?_replicate] at hx
      split at hx <;> simp at hx; exact hx.symm
    subst this; simp
  · simp only [St.setIsSetEnabled, h, isSetBytes_eq, up8]; simp

theorem mark_bits {s : St} {m : Nat} {p : Nat → Bool} {b : Bytes} (he : s.isSetEnabled = true)
    (hb : s.isSetBits = some b) (h : RawBits m p b) (n : Nat) (hn : n < m) :
    ∃ b', (s.markFieldSet n).isSetBits = some b' ∧ RawBits m (fun i => p i || n == i) b' := by
  have hlt : n / 7 < b.length := by
    rw [h.len]; simp only [up8, isSetBytes]; omega
  have hg : b[n / 7]? = some b[n / 7] := List.getElem?_eq_getElem hlt
  refine ⟨b.set (n / 7) (b[n / 7] ||| (1 <<< UInt8.ofNat (n % 7))), ?_, ⟨by simp [h.len], ?_⟩⟩
  · simp only [St.markFieldSet, he, hb, hg]
  · intro j k x hx hk
    rw [List.getElem?_set] at hx
    by_cases hj : n / 7 = j
    · rw [if_pos hj, if_pos hlt] at hx
      have hx := (Option.some.inj hx).symm
      subst hj
      rw [hx, testBit_or_shift _ _ _ (by omega) hk, h.bit _ k _ hg hk]
      by_cases hk7 : k < 7
      · by_cases e : n % 7 = k
        · have : n = 7 * (n / 7) + k := by omega
          have e2 : (n == 7 * (n / 7) + k) = true := by simpa using this
          have : 7 * (n / 7) + k < m := by omega
          simp [hk7, e, e2, this]
        · have : ¬ n = 7 * (n / 7) + k := by omega
          have e2 : (n == 7 * (n / 7) + k) = false := by simpa using this
          simp [hk7, e, e2]
      · have : ¬ n % 7 = k := by omega
        simp [hk7, this]
    · rw [if_neg hj] at hx
      rw [h.bit j k x hx hk]
      by_cases hk7 : k < 7
      · have : ¬ n = 7 * j + k := by omega
        have e2 : (n == 7 * j + k) = false := by simpa using this
        simp [e2]
      · simp [hk7]

theorem continuation_bits {m : Nat} {p : Nat → Bool} {b : Bytes} (h : RawBits m p b) :
    IsSetField m p (St.setContinuation b (isSetBytes m - 1)) := by
  have hle : isSetBytes m ≤ b.length := by rw [h.len]; simp only [up8]; omega
  constructor
  · simp only [St.setContinuation, List.length_append, List.length_map, List.length_take, List.length_drop]
    rw [← h.len]; omega
  · intro j k x hx hk
    simp only [St.setContinuation] at hx
    by_cases hj : j < isSetBytes m - 1
    · rw [List.getElem?_append_left (by simp; omega), List.getElem?_map, List.getElem?_take_of_lt hj] at hx
      obtain ⟨y, hy, rfl⟩ := Option.map_eq_some_iff.mp hx
      rw [testBit_or_top y k hk, h.bit j k y hy hk]
      by_cases hk7 : k = 7
      · have : j + 1 < isSetBytes m := by omega
        simp [hk7, this]
      · have : k < 7 := by omega
        simp [hk7, this]
    · rw [List.getElem?_append_right (by simp; omega), List.getElem?_drop] at hx
      have e : isSetBytes m - 1 + (j - (List.map (· ||| 0x80) (List.take (isSetBytes m - 1) b)).length) = j := by
        simp; omega
      rw [e] at hx
      rw [h.bit j k x hx hk]
      by_cases hk7 : k = 7
      · have : ¬ j + 1 < isSetBytes m := by omega
        simp [hk7, this]
      · have : k < 7 := by omega
        simp [hk7, this]

/-! ### The bits after a program -/

/-- What one call does to the bits. -/
theorem op_bits (op : Op) {r : Nat} {s : St} {vs : List Val} (h : Rep r s (encs vs 0))
    (hl : s.idx.length ≤ vs.length) (hm : vs.length ≤ 65536)
    (hfit : op.Within s.idx.length) (hs : 8 + sizes (op.spec vs) < 2 ^ 32) (s' : St) (hrun : op.run s = .ok s') :
    s'.isSetBits = s.isSetBits ∧ (∀ i, op.marks i = false) ∨
    ∃ n, n < s.idx.length ∧ s'.isSetBits = (s.markFieldSet n).isSetBits ∧ ∀ i, op.marks i = (n == i) := by
  match op with
  | .set fn t v =>
    simp only [Op.Within] at hfit
    obtain ⟨hfn, hclean⟩ := hfit
    have hst := hclean
    simp only [Op.spec] at hs
    have hsz : scalarSize t v < 2 ^ 32 := by
      cases hz : t.isZero v with
      | true => exact scalarSize_zero t v hz
      | false =>
        have := sizes_ge (vs.set fn (specScalar t v)) fn
        rw [List.getD_eq_getElem?_getD, List.getElem?_set_self (by omega)] at this
        simp only [Option.getD_some, specScalar, hz, Bool.false_eq_true, if_false, Val.size] at this
        simp only [specScalar, hz, Bool.false_eq_true, if_false] at hs
        omega
    have henc : (specScalar t v).isAbsent = false → scalarBlob fn t v = (specScalar t v).enc fn := by
      intro hz; rw [isAbsent_specScalar] at hz; simp [specScalar, hz, Val.enc]
    have hstored := specScalar_stored hst
    simp only [Op.run] at hrun
    cases hmap : t.isMap with
    | true =>
      obtain ⟨w, h1, _, _, h4, _⟩ := store_map_rep h hl hm fn hfn (specScalar t v) hstored hs
        (scalarBlob fn t v) henc
      rw [set_eq_map t s fn v hst hmap, ← isAbsent_specScalar, h1] at hrun
      obtain rfl := Res.ok.inj hrun
      exact Or.inl ⟨h4, fun i => by simp [Op.marks, hmap]⟩
    | false =>
      cases hlist : t.isList with
      | false =>
        obtain ⟨w, h1, _, _, h4, _⟩ := store_rep h hl hm fn hfn (specScalar t v) hstored (t.recData v) hs
          (scalarBlob fn t v) henc
        rw [set_eq t s fn v hsz hst hlist hmap, ← isAbsent_specScalar, h1] at hrun
        obtain rfl := Res.ok.inj hrun
        rw [isAbsent_specScalar] at h4
        cases hz : t.isZero v with
        | true =>
          rw [hz] at h4
          exact Or.inl ⟨by simpa using h4, fun i => by simp [Op.marks, hz]⟩
        | false =>
          rw [hz] at h4
          exact Or.inr ⟨fn, hfn, by simpa using h4, fun i => by simp [Op.marks, hz, hlist, hmap]⟩
      | true =>
        obtain ⟨w, h1, _, _, h4, _⟩ := store_list_rep h hl hm fn hfn (specScalar t v) hstored (t.recData v) hs
          (scalarBlob fn t v) henc
        rw [set_eq_list t s fn v hsz hst hlist, ← isAbsent_specScalar, h1] at hrun
        obtain rfl := Res.ok.inj hrun
        exact Or.inl ⟨h4, fun i => by simp [Op.marks, hlist]⟩
  | .clear fn =>
    simp only [Op.Within] at hfit
    obtain ⟨sp, h1, h2⟩ := removeField_rep h fn (by omega)
    simp only [Op.run, clearField, h1] at hrun
    obtain rfl := Res.ok.inj hrun
    exact Or.inl ⟨rfl, fun i => rfl⟩
  | .peek =>
    simp only [Op.run, h.ensure] at hrun
    obtain rfl := Res.ok.inj hrun
    exact Or.inl ⟨rfl, fun i => rfl⟩
  | .nestNil fn =>
    simp only [Op.Within] at hfit
    simp only [Op.spec] at hs
    obtain ⟨w, h1, _, _, h4, _⟩ := store_rep h hl hm fn hfit .absent trivial [] hs [] (by simp [Val.isAbsent])
    have e : Op.run (.nestNil fn) s = .ok w := by
      rw [← h1]; simp [Op.run, setNestedStruct, setOrClear, Val.isAbsent]
    rw [e] at hrun
    obtain rfl := Res.ok.inj hrun
    exact Or.inl ⟨by simpa [Val.isAbsent] using h4, fun i => rfl⟩
  | .nestList fn m progs =>
    simp only [Op.Within] at hfit
    obtain ⟨hfn, hm', hf⟩ := hfit
    simp only [Op.spec] at hs
    obtain ⟨ds, hrun', hseg⟩ := items_within m hm' progs hf
    have hsz : 8 + itemSizes (specItems m progs) < 2 ^ 40 := by
      cases hp : specItems m progs with
      | nil => simp [itemSizes]
      | cons vs' items =>
        have := sizes_ge (vs.set fn (specStructs (specItems m progs))) fn
        rw [List.getD_eq_getElem?_getD, List.getElem?_set_self (by omega)] at this
        simp only [Option.getD_some, specStructs, hp, List.isEmpty_cons, Bool.false_eq_true,
          if_false, Val.size] at this
        simp only [specStructs, hp, List.isEmpty_cons, Bool.false_eq_true, if_false] at hs
        omega
    obtain ⟨w, h1, _, _, h4, _⟩ := store_list_rep h hl hm fn hfn (specStructs (specItems m progs))
      (specStructs_stored _) (patchStructs ds) hs (hdr fn FTListStructs (8 + (encItems (specItems m progs) 0).length) ++
        encItems (specItems m progs) 0) (by
        intro hz; rw [isAbsent_specStructs] at hz; simp [specStructs, hz, Val.enc])
    have e : Op.run (.nestList fn m progs) s = .ok w := by
      simp only [Op.run, hrun', Res.ok_bind, setListStructs]
      rw [structsBlob_eq fn ds _ hseg hsz, ← h1, isAbsent_specStructs]
      congr 1
      rw [(itemSegs_sum ds _ hseg).2]
      cases specItems m progs <;> simp
    rw [e] at hrun
    obtain rfl := Res.ok.inj hrun
    exact Or.inl ⟨h4, fun i => rfl⟩
  | .nest fn m ops =>
    simp only [Op.Within] at hfit
    obtain ⟨hfn, hm', hf⟩ := hfit
    simp only [Op.spec] at hs
    obtain ⟨c0, hc0, hr0, hlen0, _⟩ := new_rep m
    obtain ⟨c, hcrun, hcr, hcfg⟩ := ops_within ops hr0 (by simp [hlen0]) (by simp [hm'])
      (by rw [hlen0]; exact hf)
    have hclen : (specOps ops (List.replicate m .absent)).length = m := by
      rw [specOps_length]; simp
    have htot := hcr.small
    obtain ⟨w, h1, _, _, h4, _⟩ := store_rep h hl hm fn hfn
      (specStruct (specOps ops (List.replicate m .absent)))
      (specStruct_stored _) c.seg.data hs
      (hdr fn FTStruct (8 + (encs (specOps ops (List.replicate m .absent)) 0).flatten.length)
        ++ (encs (specOps ops (List.replicate m .absent)) 0).flatten) (by
        intro hz; rw [isAbsent_specStruct] at hz; simp [specStruct, hz, Val.enc, total])
    have e : Op.run (.nest fn m ops) s = .ok w := by
      simp only [Op.run, hc0, Res.ok_bind, hcrun, setNestedStruct]
      rw [hcr.data, nestedBlob_eq _ _ _ _ (by simp only [total] at htot; omega), ← hcr.data]
      rw [← h1]
      congr 1
      rw [isAbsent_specStruct]
      have hdl : c.seg.data.length = 8 + sizes (specOps ops (List.replicate m .absent)) := by
        rw [hcr.data, List.length_append, encs_flatten_length, hdr_length]
      have hz := sizes_eq_zero (specOps ops (List.replicate m .absent))
      by_cases h0 : sizes (specOps ops (List.replicate m .absent)) = 0
      · rw [hz.mp h0]; simp [HeaderSize]; omega
      · have : (specOps ops (List.replicate m .absent)).all Val.isAbsent = false := by
          cases hh : (specOps ops (List.replicate m .absent)).all Val.isAbsent with
          | false => rfl
          | true => exact absurd (hz.mpr hh) h0
        rw [this]; simp [HeaderSize]; omega
    rw [e] at hrun
    obtain rfl := Res.ok.inj hrun
    cases hz : (specStruct (specOps ops (List.replicate m .absent))).isAbsent with
    | true =>
      rw [hz] at h4
      exact Or.inl ⟨by simpa using h4, fun i => by simp [Op.marks, specRun, hz]⟩
    | false =>
      rw [hz] at h4
      exact Or.inr ⟨fn, hfn, by simpa using h4, fun i => by simp [Op.marks, specRun, hz]⟩

theorem ops_bits (ops : List Op) : ∀ {r : Nat} {s : St} {vs : List Val} {p : Nat → Bool} {b : Bytes},
    Rep r s (encs vs 0) → s.idx.length ≤ vs.length → vs.length ≤ 65536 →
    WithinFrom s.idx.length ops vs → s.isSetEnabled = true → s.isSetBits = some b →
    RawBits s.idx.length p b →
    ∃ s' b', runOps ops s = .ok s' ∧ Rep r s' (encs (specOps ops vs) 0) ∧ SameCfg s s' ∧
      s'.isSetBits = some b' ∧
      RawBits s.idx.length (fun i => p i || marked ops i) b' := by
  induction ops with
  | nil =>
    intro r s vs p b h _ _ _ _ hb hw
    exact ⟨s, b, by simp [runOps], by simpa [specOps] using h, SameCfg.refl s, hb,
      by simpa [marked] using hw⟩
  | cons op ops ih =>
    intro r s vs p b h hl hm hfit he hb hw
    simp only [WithinFrom] at hfit
    obtain ⟨s1, e1, r1, c1⟩ := op_within op h hl hm hfit.1 hfit.2.1
    have hbits : ∃ b1, s1.isSetBits = some b1 ∧ RawBits s1.idx.length (fun i => p i || op.marks i) b1 := by
      rw [c1.len]
      rcases op_bits op h hl hm hfit.1 hfit.2.1 s1 e1 with ⟨q1, q2⟩ | ⟨n, hn, q1, q2⟩
      · exact ⟨b, by rw [q1, hb], by simpa [q2] using hw⟩
      · obtain ⟨b', q3, q4⟩ := mark_bits he hb hw n hn
        exact ⟨b', by rw [q1, q3], by simpa [q2] using q4⟩
    obtain ⟨b1, hb1, hw1⟩ := hbits
    obtain ⟨s2, b2, e2, r2, c2, f1, f2⟩ := ih r1 (by rw [spec_length, c1.len]; exact hl)
      (by rw [spec_length]; exact hm) (by rw [c1.len]; exact hfit.2.2) (by rw [c1.enabled, he]) hb1 hw1
    refine ⟨s2, b2, ?_, by simpa [specOps] using r2, c1.trans c2, f1, ?_⟩
    · simp [runOps, e1, e2]
    · rw [c1.len] at f2
      simpa [marked, Bool.or_assoc] using f2

/-! ### Marshalling -/

/-- A represented struct with tracking on: the fields, then the bit field. -/
theorem marshal_isset {r m : Nat} {s : St} {fs : List Bytes} {p : Nat → Bool} {b : Bytes} (h : Rep r s fs)
    (he : s.isSetEnabled = true) (hb : s.isSetBits = some b) (hw : RawBits m p b) (hm : s.idx.length = m)
    (hm' : m ≤ 65536) :
    ∃ bits s', s.marshal = .ok (hdr r FTStruct (total fs + bits.length) ++ fs.flatten ++ bits, s') ∧
      IsSetField m p bits ∧ s'.isSetEnabled = false := by
  subst hm
  have hq := continuation_bits hw
  generalize hbits : St.setContinuation b (isSetBytes s.idx.length - 1) = bits at hq
  have hcond : (s.isSetEnabled = true ∧ s.isSetBits ≠ none) := ⟨he, by simp [hb]⟩
  have happ : s.appendIsSetBitfield = { s with isSetBits := some bits, seg := s.seg.append bits } := by
    simp only [St.appendIsSetBitfield, he, hb, isSetBytes_eq, hbits]
  have hd : (s.seg.append bits).data = hdr r FTStruct (total fs) ++ (fs.flatten ++ bits) := by
    rw [Seg.append_data, h.data, List.append_assoc]
  have hlen : (s.seg.append bits).data.length = total fs + bits.length := by
    rw [hd]; simp [total, Nat.add_assoc]
  have hg := Seg.putHeaderSize_eq (s.seg.append bits) r FTStruct (total fs) (fs.flatten ++ bits) hd
    (total fs + bits.length) (by
      have := h.small
      have := hq.1
      simp only [up8, isSetBytes] at this
      omega)
  refine ⟨bits, St.mk ⟨hdr r FTStruct (total fs + bits.length) ++ (fs.flatten ++ bits), (s.seg.append bits).spare⟩
    s.idx s.parsed false (some bits) s.recording s.ops, ?_, hq, rfl⟩
  simp only [St.marshal, if_pos hcond, happ, hlen, hg, Res.ok_bind, Res.pure_eq]
  rw [List.append_assoc]

/-! ### Decoding: the bit field is taken for a field -/

theorem toNat_bits (x : UInt8) : x.toNat = (List.range 8).foldl (fun n k => n + if x.toNat.testBit k then 2 ^ k else 0) 0 := by
  have key : ∀ x : Fin 256, x.val = (List.range 8).foldl (fun n k => n + if x.val.testBit k then 2 ^ k else 0) 0 := by
    decide +kernel
  exact key ⟨x.toNat, x.toNat_lt⟩

theorem top_bit (x : UInt8) (h : x.toNat.testBit 7 = true) : 128 ≤ x.toNat := by
  have key : ∀ x : Fin 256, x.val.testBit 7 = true → 128 ≤ x.val := by decide +kernel
  exact key ⟨x.toNat, x.toNat_lt⟩ h

theorem no_bits (x : UInt8) (h : ∀ k, k < 8 → x.toNat.testBit k = false) : x.toNat = 0 := by
  have key : ∀ x : Fin 256, (∀ k : Fin 8, x.val.testBit k.val = false) → x.val = 0 := by decide +kernel
  exact key ⟨x.toNat, x.toNat_lt⟩ fun k => h k.val k.isLt

theorem byte_sum (x : UInt8) (q : Nat → Bool) (h : ∀ k, k < 7 → x.toNat.testBit k = q k)
    (h7 : x.toNat.testBit 7 = false) :
    x.toNat = (List.range 7).foldl (fun n k => n + if q k then 2 ^ k else 0) 0 := by
  rw [toNat_bits x]
  simp only [List.range, List.range.loop, List.foldl, h 0 (by omega), h 1 (by omega), h 2 (by omega),
    h 3 (by omega), h 4 (by omega), h 5 (by omega), h 6 (by omega), h7]
  simp

/-- What a decoder makes of the bit field that follows the fields. Numbers from 32896 on could be
taken for a field of the schema, below them it is noise or a freeze. -/
theorem parse_bits {m : Nat} {p : Nat → Bool} {bits : Bytes} (h : IsSetField m p bits) (hm : m ≤ 65536)
    (pos : Nat) (idx : List Entry) (hidx : idx.length ≤ 32896) :
    (Freezes m p → parseLoop pos bits idx = .hang) ∧ (¬ Freezes m p → parseLoop pos bits idx = .ok idx) := by
  obtain ⟨hlen, hbit⟩ := h
  have h8 : 8 ≤ bits.length := by rw [hlen]; simp only [up8, isSetBytes]; omega
  match bits, h8 with
  | b0 :: b1 :: b2 :: b3 :: b4 :: b5 :: b6 :: b7 :: rest, _ =>
  have hdec : decodeHeader (b0 :: b1 :: b2 :: b3 :: b4 :: b5 :: b6 :: b7 :: rest)
      = some (b0.toNat + 256 * b1.toNat, b2.toNat,
        b3.toNat + 256 * (b4.toNat + 256 * (b5.toNat + 256 * (b6.toNat + 256 * b7.toNat)))) := by
    have := b0.toNat_lt; have := b1.toNat_lt; have := b2.toNat_lt
    simp only [decodeHeader, HeaderSize, List.length_cons, List.take_succ_cons, List.take_zero, getLE,
      List.drop_succ_cons, List.drop_zero, List.headD_cons, Nat.mul_zero, Nat.add_zero, Nat.shiftRight_eq_div_pow]
    rw [if_neg (by omega)]
    congr 3
    omega
  generalize hf : b3.toNat + 256 * (b4.toNat + 256 * (b5.toNat + 256 * (b6.toNat + 256 * b7.toNat))) = f at hdec
  have hcont : ∀ j x, (b0 :: b1 :: b2 :: b3 :: b4 :: b5 :: b6 :: b7 :: rest)[j]? = some x →
      j + 1 < isSetBytes m → 128 ≤ x.toNat := by
    intro j x hx hj
    apply top_bit
    rw [hbit j 7 x hx (by omega)]; simp [hj]
  have hzero : ∀ j x, (b0 :: b1 :: b2 :: b3 :: b4 :: b5 :: b6 :: b7 :: rest)[j]? = some x →
      isSetBytes m ≤ j → x.toNat = 0 := by
    intro j x hx hj
    apply no_bits
    intro k hk
    rw [hbit j k x hx hk]
    have h1 : ¬ j + 1 < isSetBytes m := by omega
    have h2 : ¬ 7 * j + k < m := by simp only [isSetBytes] at hj; omega
    simp [h1, h2]
  rw [parseLoop_eq, if_pos (by simp [HeaderSize]), hdec]
  simp only
  by_cases hn3 : isSetBytes m < 3
  · have e := hzero 2 b2 rfl (by omega)
    rw [if_pos e]
    refine ⟨fun hz => ?_, fun _ => rfl⟩
    have := hz.1
    simp only [isSetBytes] at hn3
    omega
  by_cases h0 : b2.toNat = 0
  · rw [if_pos h0]
    refine ⟨fun hz => ?_, fun _ => rfl⟩
    obtain ⟨z1, z2, z3⟩ := hz
    have e3 : isSetBytes m = 3 := by simp only [isSetBytes]; omega
    have hs := byte_sum b2 (fun k => decide (14 + k < m) && p (14 + k))
      (by intro k hk; rw [hbit 2 k b2 rfl (by omega), if_neg (by omega)])
      (by rw [hbit 2 7 b2 rfl (by omega)]; simp [e3])
    rw [← hs, h0] at z3
    simp [DeclaresNothing] at z3
  rw [if_neg h0]
  have c0 := hcont 0 b0 rfl (by omega)
  have c1 := hcont 1 b1 rfl (by omega)
  have hrec : ∀ z, recordEntry idx (b0.toNat + 256 * b1.toNat) pos z = idx := by
    intro z; simp only [recordEntry]; rw [if_neg (by omega)]
  rw [hrec, fieldSizeAt_eq_extent _ _ _ h0]
  have hend : ∀ q l i, l.length < 8 → parseLoop q l i = .ok i := by
    intro q l i hl; rw [parseLoop_eq, if_neg (by simp [HeaderSize]; omega)]
  by_cases hn4 : isSetBytes m = 3
  · have f0 : f = 0 := by
      have := hzero 3 b3 rfl (by omega); have := hzero 4 b4 rfl (by omega); have := hzero 5 b5 rfl (by omega)
      have := hzero 6 b6 rfl (by omega); have := hzero 7 b7 rfl (by omega)
      omega
    have hs := byte_sum b2 (fun k => decide (14 + k < m) && p (14 + k))
      (by intro k hk; rw [hbit 2 k b2 rfl (by omega), if_neg (by omega)])
      (by rw [hbit 2 7 b2 rfl (by omega)]; simp [hn4])
    have hmr : 15 ≤ m ∧ m ≤ 21 := by simp only [isSetBytes] at hn4; omega
    have hfz : Freezes m p ↔ DeclaresNothing b2.toNat f := by
      rw [f0]; simp only [Freezes, ← hs]; simp [hmr]
    rw [hfz]
    have hez := extent_zero_iff (b0 :: b1 :: b2 :: b3 :: b4 :: b5 :: b6 :: b7 :: rest) b2.toNat f
    refine ⟨fun hz => by rw [if_pos (hez.mpr hz)], fun hz => ?_⟩
    rw [if_neg (fun e => hz (hez.mp e))]
    apply hend
    have hl8 : rest.length = 0 := by
      rw [hn4] at hlen; simp [up8] at hlen; simp [hlen]
    have hge : 8 ≤ extent (b0 :: b1 :: b2 :: b3 :: b4 :: b5 :: b6 :: b7 :: rest) b2.toNat f := by
      have hne : extent (b0 :: b1 :: b2 :: b3 :: b4 :: b5 :: b6 :: b7 :: rest) b2.toNat f ≠ 0 :=
        fun e => hz (hez.mp e)
      have := scanListAny_ge (b0 :: b1 :: b2 :: b3 :: b4 :: b5 :: b6 :: b7 :: rest) f 8
      revert hne
      rw [f0] at this ⊢
      unfold extent
      repeat' split
      all_goals omega
    simp only [List.length_drop, List.length_cons]
    omega
  · have c2 := hcont 2 b2 rfl (by omega)
    have hnf : ¬ Freezes m p := by
      rintro ⟨z1, z2, _⟩; simp only [isSetBytes] at hn3 hn4; omega
    refine ⟨fun hz => absurd hz hnf, fun _ => ?_⟩
    have hext : extent (b0 :: b1 :: b2 :: b3 :: b4 :: b5 :: b6 :: b7 :: rest) b2.toNat f = max 8 f := by
      unfold extent
      repeat' split
      all_goals omega
    rw [hext, if_neg (by omega)]
    apply hend
    simp only [List.length_drop]
    rw [hlen]
    by_cases hn9 : isSetBytes m ≤ 8
    · have : up8 (isSetBytes m) = 8 := by simp only [up8, isSetBytes] at *; omega
      omega
    · have c7 := hcont 7 b7 rfl (by omega)
      have : up8 (isSetBytes m) < 2 ^ 20 := by simp only [up8, isSetBytes]; omega
      omega

end Claw
