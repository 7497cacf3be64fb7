import Verif.Lemmas.MapDecode

/-!
# Encoded fields: closed forms, getters on represented structs
-/

namespace Claw

/-! ### Closed form of encoded scalars -/

def STy.ft : STy → Nat
  | .bool => FTBool | .i8 => FTInt8 | .i16 => FTInt16 | .i32 => FTInt32 | .i64 => FTInt64
  | .u8 => FTUint8 | .u16 => FTUint16 | .u32 => FTUint32 | .u64 => FTUint64
  | .f32 => FTFloat32 | .f64 => FTFloat64 | .bytes => FTBytes | .str => FTString
  | .lbool => FTListBools | .lnum k => k.ft | .lstr => FTListStrings | .lbytes => FTListBytes
  | .any => FTAny | .lany => FTListAny | .map _ _ => FTMap

def STy.f40 : (t : STy) → t.Val → Nat
  | .bool, _ => 1 | .i8, v => v.toUInt8.toNat | .i16, v => v.toUInt16.toNat
  | .i32, v => v.toUInt32.toNat | .i64, _ => 0
  | .u8, v => v.toNat | .u16, v => v.toNat | .u32, v => v.toNat | .u64, _ => 0
  | .f32, v => v.bits.toNat | .f64, _ => 0 | .bytes, v => v.length | .str, v => v.length
  | .lbool, v => v.length | .lnum k, v => 8 + v.length * k.size
  | .lstr, v => 8 + (itemBytes v + 7) / 8 * 8 | .lbytes, v => 8 + (itemBytes v + 7) / 8 * 8
  | .any, none => 0
  | .any, some a => 14 + 256 * (16 + a.data.length)
  | .lany, v => v.length
  | .map kt vt, v => kt.ft + 256 * vt.ft + 65536 * (8 + (entryBytes kt vt v + 7) / 8 * 8)

def STy.tail : (t : STy) → t.Val → Bytes
  | .i64, v => putLE 8 v.toUInt64.toNat
  | .u64, v => putLE 8 v.toNat
  | .f64, v => putLE 8 v.bits.toNat
  | .bytes, v => v ++ zeros (paddingNeeded v.length)
  | .str, v => v ++ zeros (paddingNeeded v.length)
  | .lbool, v => boolsTail v
  | .lnum k, v => numData k v
  | .lstr, v => itemsData v ++ zeros (paddingNeeded (itemsSize v))
  | .lbytes, v => itemsData v ++ zeros (paddingNeeded (itemsSize v))
  | .any, none => []
  | .any, some a => a.enc
  | .lany, v => anysEnc v
  | .map kt vt, v => entriesEnc kt vt v ++ zeros (paddingNeeded (entryBytes kt vt v))
  | _, _ => []

/-- What the recorder stores for a set. -/
def STy.recData : (t : STy) → t.Val → Bytes
  | .bool, _ => [1] | .i8, v => [v.toUInt8] | .i16, v => putLE 2 v.toUInt16.toNat
  | .i32, v => putLE 4 v.toUInt32.toNat | .i64, v => putLE 8 v.toUInt64.toNat
  | .u8, v => [v] | .u16, v => putLE 2 v.toNat | .u32, v => putLE 4 v.toNat
  | .u64, v => putLE 8 v.toNat | .f32, v => putLE 4 v.bits.toNat
  | .f64, v => putLE 8 v.bits.toNat | .bytes, v => v | .str, v => v
  | .lbool, v => v.map fun b => if b then 1 else 0
  | .lnum k, v => numData k v | .lstr, v => patchItems v | .lbytes, v => patchItems v
  | .any, none => []
  | .any, some a => a.enc
  | .lany, v => anysEnc v
  | .map _ _, _ => []

def scalarBlob (i : Nat) (t : STy) (v : t.Val) : Bytes := hdr i t.ft (t.f40 v) ++ t.tail v

theorem f40_lt (t : STy) (v : t.Val) (h : scalarSize t v < 2 ^ 32) (hst : t.Storable v) : t.f40 v < 2 ^ 40 := by
  cases t
  case any =>
    cases v with
    | none => simp [STy.f40]
    | some a => simp only [scalarSize] at h; simp only [STy.f40]; omega
  case lany =>
    have hc := anysEnc_count v hst
    rw [anysEnc_length] at hc
    simp only [scalarSize] at h; simp only [STy.f40]; omega
  case map kt vt =>
    have h1 := kt.ft_lt
    have h2 := vt.ft_lt
    have h3 := hst.2
    simp only [scalarSize] at h3; simp only [STy.f40]; omega
  all_goals simp only [STy.f40]
  case i8 => have := v.toUInt8.toNat_lt; omega
  case i16 => have := v.toUInt16.toNat_lt; omega
  case i32 => have := v.toUInt32.toNat_lt; omega
  case u8 => have := v.toNat_lt; omega
  case u16 => have := v.toNat_lt; omega
  case u32 => have := v.toNat_lt; omega
  case f32 => have := v.bits.toNat_lt; omega
  case bytes => simp only [scalarSize] at h; omega
  case str => simp only [scalarSize] at h; omega
  case lbool => simp only [scalarSize] at h; omega
  case lnum => simp only [scalarSize] at h; omega
  case lstr => simp only [scalarSize] at h; omega
  case lbytes => simp only [scalarSize] at h; omega
  all_goals omega

theorem itemBytes_eq (v : List Bytes) : itemBytes v = itemsSize v := rfl

theorem scalarBlob_length (i : Nat) (t : STy) (v : t.Val) :
    (scalarBlob i t v).length = scalarSize t v := by
  cases t
  case any => cases v <;> simp [scalarBlob, STy.tail, scalarSize, AnyVal.enc_length]; omega
  case lany => simp only [scalarBlob, STy.tail, scalarSize, List.length_append, hdr_length, anysEnc_length]
  case map kt vt =>
    simp only [scalarBlob, STy.tail, scalarSize, List.length_append, hdr_length, entriesEnc_length,
      zeros_length]
    rw [paddingNeeded_sum]
  all_goals simp only [scalarBlob, STy.tail, scalarSize, List.length_append, hdr_length,
    putLE_length, zeros_length, List.length_nil, boolsTail_length, numData_length, itemsData_length]
  case bytes => rw [paddingNeeded_sum]
  case str => rw [paddingNeeded_sum]
  case lstr => rw [paddingNeeded_sum, itemBytes_eq]
  case lbytes => rw [paddingNeeded_sum, itemBytes_eq]

theorem STy.ft_lt (t : STy) : t.ft < 2 ^ 8 := by
  cases t
  case lnum k => cases k <;> decide
  case map kt vt => show FTMap < 2 ^ 8; decide
  all_goals decide

theorem fieldSizeAt_list (k : NTy) (f : Nat) (rest : Bytes) : fieldSizeAt rest k.ft f = f := by
  cases k <;> simp +decide [fieldSizeAt]

theorem scalarBlob_wf (i : Nat) (hi : i < 2 ^ 16) (t : STy) (v : t.Val)
    (h : scalarSize t v < 2 ^ 32) (hst : t.Storable v) (hz : t.isZero v = false) :
    WFBlob i (scalarBlob i t v) := by
  refine ⟨by simp [scalarBlob], t.ft, t.f40 v, ?_, ?_, ?_⟩
  · cases t
    case lnum k => cases k <;> decide
    case map kt vt => show FTMap ≠ 0; decide
    all_goals decide
  · intro rest
    rw [scalarBlob, List.append_assoc]
    exact decodeHeader_hdr hi t.ft_lt (f40_lt t v h hst) _
  · intro rest
    rw [scalarBlob_length]
    cases t
    case lnum k => exact fieldSizeAt_list k _ _
    case lstr => simp +decide [fieldSizeAt, scalarSize, STy.f40]
    case lbytes => simp +decide [fieldSizeAt, scalarSize, STy.f40]
    case any =>
      cases v with
      | none => simp [STy.isZero] at hz
      | some a =>
        simp only [scalarSize] at h
        simp only [scalarSize, STy.f40, STy.ft]
        rw [fieldSizeAt_eq_extent _ _ _ (by decide)]
        have e : ∀ f, extent (scalarBlob i .any (some a) ++ rest) FTAny f = 8 + f / 2 ^ 8 % 2 ^ 32 := by
          intro f; simp +decide [extent]
        rw [e]; omega
    case lany =>
      have := scanListAny_enc v (scalarBlob i .lany v ++ rest) (hdr i FTListAny v.length) rest 8
        (by simp [scalarBlob, STy.tail, STy.ft, STy.f40]) (by simp) hst
      rw [anysEnc_length] at this
      simp only [STy.f40, STy.ft, scalarSize]
      rw [← this]
      simp +decide [fieldSizeAt]
    case map kt vt =>
      have h1 := kt.ft_lt
      have h2 := vt.ft_lt
      have h3 := hst.2
      simp only [scalarSize] at h3
      simp only [scalarSize, STy.f40, STy.ft]
      rw [fieldSizeAt_eq_extent _ _ _ (by decide)]
      have e : ∀ f, extent (scalarBlob i (.map kt vt) v ++ rest) FTMap f = f / 2 ^ 16 % 2 ^ 24 := by
        intro f; simp +decide [extent]
      rw [e]; omega
    all_goals simp +decide [fieldSizeAt, scalarSize, STy.f40, HeaderSize] <;>
      rw [Nat.add_assoc, paddingNeeded_sum]

theorem wide_eq (fn ft v : Nat) : wide fn ft v = some (hdr fn ft 0 ++ putLE 8 v) := by
  simp only [wide, encodeHeaderAt_eq (buf := zeros 16) (by simp) fn ft (f := 0) (by omega)]
  rw [goCopy_fit' (hdr fn ft 0) ((zeros 16).drop 8) [] (putLE 8 v) (by simp) (by simp)
    (by simp [zeros])]
  simp

theorem bytesBlob_eq (fn ft : Nat) (v : Bytes) (h : v.length < 2 ^ 40) :
    bytesBlob fn ft v = some (hdr fn ft v.length ++ (v ++ zeros (paddingNeeded v.length))) := by
  simp only [bytesBlob]
  rw [encodeHeaderAt_eq (by simp [HeaderSize]; omega) fn ft h]
  simp only
  have hz : (zeros (HeaderSize + v.length + paddingNeeded v.length)).drop 8
      = zeros v.length ++ zeros (paddingNeeded v.length) := by
    simp only [zeros, List.drop_replicate, HeaderSize]
    rw [List.replicate_append_replicate]; congr 1; omega
  rw [hz, goCopy_fit' (hdr fn ft v.length) (zeros v.length) (zeros (paddingNeeded v.length)) v
    (by simp) (by simp) (by simp)]
  simp

theorem nestedBlob_eq (fn r f : Nat) (body : Bytes) (h : 8 + body.length < 2 ^ 40) :
    nestedBlob fn (hdr r FTStruct f ++ body) = some (hdr fn FTStruct (8 + body.length) ++ body) := by
  have hb : (hdr r FTStruct f ++ body).drop HeaderSize = body := List.drop_left' (by simp)
  simp only [nestedBlob, hb]
  rw [encodeHeaderAt_eq (by simp [HeaderSize]) fn FTStruct (by simp [HeaderSize]; omega)]
  simp only
  rw [goCopy_fit' (hdr fn FTStruct (body.length + HeaderSize)) (zeros body.length) [] body]
  · simp [HeaderSize, Nat.add_comm]
  · simp [zeros, HeaderSize]
  · simp
  · simp

/-- All scalar setters at once. -/
theorem set_eq (t : STy) (s : St) (n : Nat) (v : t.Val) (h : scalarSize t v < 2 ^ 32)
    (hst : t.Storable v) (hl : t.isList = false) (hmap : t.isMap = false) :
    t.set s n v = setOrClear s n (t.isZero v) (some (scalarBlob n t v)) (t.recData v) := by
  have hf := f40_lt t v h hst
  cases t
  case any =>
    cases v with
    | none => rfl
    | some a =>
      simp only [scalarSize] at h
      simp only [STy.set, setAny, anyBlob_eq n a hst (by omega), STy.isZero, STy.recData, scalarBlob, STy.ft,
        STy.f40, STy.tail, Option.getD_some, Option.isNone]
      rw [List.drop_left' (by simp [HeaderSize])]
  case lany =>
    simp only [STy.f40] at hf
    simp only [STy.set, setListAny, anysBlob_eq n v (fun a ha => (hst a ha).1) hf, STy.isZero, STy.recData,
      scalarBlob, STy.ft, STy.f40, STy.tail, Option.getD_some]
    rw [List.drop_left' (by simp [HeaderSize])]
  case map => simp [STy.isMap] at hmap
  all_goals (
    simp only [STy.isList, Bool.true_eq_false] at hl) 
  all_goals simp only [STy.set, STy.isZero, STy.recData, scalarBlob, STy.ft, STy.f40, STy.tail,
      setBool, setInt8, setInt16, setInt32, setInt64, setUint8, setUint16, setUint32, setUint64,
      setFloat32, setFloat64, setBytes, setStringAsBytes, wide_eq, List.append_nil] at hf ⊢
  case bytes => rw [bytesBlob_eq _ _ _ hf]
  case str => rw [bytesBlob_eq _ _ _ hf]
  all_goals rw [makeHeader_eq _ _ hf]

/-- All list setters at once. -/
theorem set_eq_list (t : STy) (s : St) (n : Nat) (v : t.Val) (h : scalarSize t v < 2 ^ 32)
    (hst : t.Storable v) (hl : t.isList = true) :
    t.set s n v = storeList s n (t.isZero v) (some (scalarBlob n t v)) (t.recData v) := by
  have hf := f40_lt t v h hst
  cases t <;> simp only [STy.isList, Bool.false_eq_true] at hl <;>
    simp only [STy.set, STy.isZero, STy.recData, scalarBlob, STy.ft, STy.f40, STy.tail,
      setListBools, setListNums, setListItems, setAll_eq] at hf ⊢
  case lbool => rw [boolsBlob_eq _ _ hf]
  case lnum k => rw [nums_blob_eq _ _ _ _ (by rw [numData_length]; exact hf), numData_length]
  case lstr => rw [itemsBlob_eq _ _ _ hf]; rfl
  case lbytes => rw [itemsBlob_eq _ _ _ hf]; rfl

/-- All map setters at once. -/
theorem set_eq_map (t : STy) (s : St) (n : Nat) (v : t.Val) (hst : t.Storable v) (hm : t.isMap = true) :
    t.set s n v = if t.isZero v then s.removeField n else s.insertField n (scalarBlob n t v) := by
  cases t <;> simp only [STy.isMap, Bool.false_eq_true] at hm
  case map kt vt =>
    obtain ⟨h1, h2⟩ := hst
    simp only [scalarSize] at h2
    simp only [STy.set, syncMap, mapBlob_eq kt vt n v h1 h2, STy.isZero]
    by_cases h0 : v.length = 0
    · simp only [Bool.not_true, Bool.false_eq_true, if_false, List.length_map, h0, if_true]
      cases hr : s.removeField n <;> simp
    · simp only [Bool.not_true, Bool.false_eq_true, if_false, List.length_map, h0, Res.ofOption_some, Res.ok_bind]
      simp only [scalarBlob, STy.ft, STy.f40, STy.tail]
      cases hr : s.insertField n (hdr n FTMap (kt.ft + 256 * vt.ft + 65536 * (8 + (entryBytes kt vt v + 7) / 8 * 8)) ++
        (entriesEnc kt vt v ++ zeros (paddingNeeded (entryBytes kt vt v)))) <;> simp [h0, hr]

/-! ### Setters preserve the representation -/

/-- The parts of a struct no setter touches. -/
structure SameCfg (s s' : St) : Prop where
  len : s'.idx.length = s.idx.length
  enabled : s'.isSetEnabled = s.isSetEnabled
  recording : s'.recording = s.recording

theorem SameCfg.refl (s : St) : SameCfg s s := ⟨rfl, rfl, rfl⟩
theorem SameCfg.trans {a b c : St} (h : SameCfg a b) (h' : SameCfg b c) : SameCfg a c :=
  ⟨h'.len.trans h.len, h'.enabled.trans h.enabled, h'.recording.trans h.recording⟩

theorem Rep.of_eq {r : Nat} {s s' : St} {fs : List Bytes} (h : Rep r s fs) (h1 : s'.seg.data = s.seg.data)
    (h2 : s'.idx = s.idx) (h3 : s'.parsed = s.parsed) : Rep r s' fs :=
  ⟨by rw [h1]; exact h.data, by rw [h2]; exact h.len, h.wf, h.small,
    by rw [h2, h3]; exact h.idx_parsed, by rw [h2, h3]; exact h.idx_unparsed⟩

theorem markFieldSet_same (s : St) (n : Nat) :
    (s.markFieldSet n).seg = s.seg ∧ (s.markFieldSet n).idx = s.idx ∧
    (s.markFieldSet n).parsed = s.parsed ∧ (s.markFieldSet n).isSetEnabled = s.isSetEnabled ∧
    (s.markFieldSet n).recording = s.recording ∧ (s.markFieldSet n).ops = s.ops := by
  simp only [St.markFieldSet]
  split
  · split <;> simp
  · simp

theorem recordOp_same (s : St) (op : RecOp) :
    (s.recordOp op).seg = s.seg ∧ (s.recordOp op).idx = s.idx ∧
    (s.recordOp op).parsed = s.parsed ∧ (s.recordOp op).isSetEnabled = s.isSetEnabled ∧
    (s.recordOp op).recording = s.recording ∧ (s.recordOp op).isSetBits = s.isSetBits := by
  simp only [St.recordOp]; split <;> simp

theorem markFieldSet_bits (s s' : St) (n : Nat) (h1 : s'.isSetEnabled = s.isSetEnabled)
    (h2 : s'.isSetBits = s.isSetBits) : (s'.markFieldSet n).isSetBits = (s.markFieldSet n).isSetBits := by
  simp only [St.markFieldSet, h1, h2]
  split
  · split <;> simp_all
  · exact h2

theorem setOrClear_rep {r : Nat} {s : St} {fs : List Bytes} (h : Rep r s fs) (n : Nat)
    (hn : n < s.idx.length) (z : Bool) (b rd : Bytes) (hb : z = false → WFBlob n b)
    (hs : z = false → total (fs.set n b) < 2 ^ 32) :
    ∃ s', setOrClear s n z (some b) rd = .ok s' ∧
      Rep r s' (fs.set n (if z then [] else b)) ∧ SameCfg s s' ∧
      s'.isSetBits = (if z then s.isSetBits else (s.markFieldSet n).isSetBits) ∧
      s'.ops = (s.recordOp (if z then ⟨n, OpClear, -1, []⟩ else ⟨n, OpSet, -1, rd⟩)).ops := by
  cases z with
  | true =>
    obtain ⟨sp, he, hr⟩ := removeField_rep h n hn
    generalize hS : ({ s with
        seg := ⟨hdr r FTStruct (total (fs.set n [])) ++ (fs.set n []).flatten, sp⟩
        idx := idxOf s.idx.length (fs.set n [])
        parsed := true } : St) = S at he hr
    obtain ⟨e1, e2, e3, e4, e5, e6⟩ := recordOp_same S ⟨n, OpClear, -1, []⟩
    refine ⟨S.recordOp ⟨n, OpClear, -1, []⟩, ?_, ?_, ?_, ?_, ?_⟩
    · simp [setOrClear, he]
    · simp only [if_true]
      exact hr.of_eq (by rw [e1]) e2 e3
    · exact ⟨by rw [e2, ← hS]; simp, by rw [e4, ← hS], by rw [e5, ← hS]⟩
    · simp only [if_true]; rw [e6, ← hS]
    · subst hS; simp only [St.recordOp, if_true]; split <;> rfl
  | false =>
    obtain ⟨sp, he, hr⟩ := insertField_rep h n b hn (hb rfl) (hs rfl)
    generalize hS : ({ s with
        seg := ⟨hdr r FTStruct (total (fs.set n b)) ++ (fs.set n b).flatten, sp⟩
        idx := idxOf s.idx.length (fs.set n b)
        parsed := true } : St) = S at he hr
    obtain ⟨m1, m2, m3, m4, m5, m6⟩ := markFieldSet_same S n
    obtain ⟨e1, e2, e3, e4, e5, e6⟩ := recordOp_same (S.markFieldSet n) ⟨n, OpSet, -1, rd⟩
    refine ⟨(S.markFieldSet n).recordOp ⟨n, OpSet, -1, rd⟩, ?_, ?_, ?_, ?_, ?_⟩
    · simp [setOrClear, he]
    · simp only [Bool.false_eq_true, if_false]
      exact hr.of_eq (by rw [e1, m1]) (by rw [e2, m2]) (by rw [e3, m3])
    · refine ⟨by rw [e2, m2, ← hS]; simp, by rw [e4, m4, ← hS], by rw [e5, m5, ← hS]⟩
    · simp only [Bool.false_eq_true, if_false]
      rw [e6]; exact markFieldSet_bits s S n (by rw [← hS]) (by rw [← hS])
    · have hrec : S.recording = s.recording := by rw [← hS]
      have hops : S.ops = s.ops := by rw [← hS]
      simp only [St.recordOp, Bool.false_eq_true, if_false, m5, hrec]
      cases s.recording <;> simp [m6, hops]

theorem storeList_rep {r : Nat} {s : St} {fs : List Bytes} (h : Rep r s fs) (n : Nat)
    (hn : n < s.idx.length) (z : Bool) (b rd : Bytes) (hb : z = false → WFBlob n b)
    (hs : z = false → total (fs.set n b) < 2 ^ 32) :
    ∃ s', storeList s n z (some b) rd = .ok s' ∧
      Rep r s' (fs.set n (if z then [] else b)) ∧ SameCfg s s' ∧
      s'.isSetBits = s.isSetBits ∧
      s'.ops = (s.recordOp ⟨n, OpListReplace, -1, rd⟩).ops := by
  obtain ⟨e1, e2, e3, e4, e5, e6⟩ := recordOp_same s ⟨n, OpListReplace, -1, rd⟩
  have h' : Rep r (s.recordOp ⟨n, OpListReplace, -1, rd⟩) fs := h.of_eq (by rw [e1]) e2 e3
  generalize hS : s.recordOp ⟨n, OpListReplace, -1, rd⟩ = S at *
  cases z with
  | true =>
    obtain ⟨sp, he, hr⟩ := removeField_rep h' n (by rw [e2]; exact hn)
    have e : storeList s n true (some b) rd = S.removeField n := by simp [storeList, hS]
    exact ⟨_, e.trans he, by simpa using hr, ⟨by simp [e2], e4, e5⟩, e6, rfl⟩
  | false =>
    obtain ⟨sp, he, hr⟩ := insertField_rep h' n b (by rw [e2]; exact hn) (hb rfl) (hs rfl)
    have e : storeList s n false (some b) rd = S.insertField n b := by simp [storeList, hS]
    exact ⟨_, e.trans he, by simpa using hr, ⟨by simp [e2], e4, e5⟩, e6, rfl⟩

theorem storePlain_rep {r : Nat} {s : St} {fs : List Bytes} (h : Rep r s fs) (n : Nat)
    (hn : n < s.idx.length) (z : Bool) (b : Bytes) (hb : z = false → WFBlob n b)
    (hs : z = false → total (fs.set n b) < 2 ^ 32) :
    ∃ s', (if z then s.removeField n else s.insertField n b) = .ok s' ∧
      Rep r s' (fs.set n (if z then [] else b)) ∧ SameCfg s s' ∧
      s'.isSetBits = s.isSetBits ∧ s'.ops = s.ops := by
  cases z with
  | true =>
    obtain ⟨sp, he, hr⟩ := removeField_rep h n hn
    have e : (if true = true then s.removeField n else s.insertField n b) = _ := he
    exact ⟨_, e, by simpa using hr, ⟨by simp, rfl, rfl⟩, rfl, rfl⟩
  | false =>
    obtain ⟨sp, he, hr⟩ := insertField_rep h n b hn (hb rfl) (hs rfl)
    have e : (if false = true then s.removeField n else s.insertField n b) = _ := he
    exact ⟨_, e, by simpa using hr, ⟨by simp, rfl, rfl⟩, rfl, rfl⟩

/-! ### Getters on a represented struct -/

theorem getFinal40_absent {r : Nat} {s : St} {fs : List Bytes} (h : Rep r s fs) (i : Nat)
    (hb : s.idx.length ≤ i ∨ blob fs i = []) : getFinal40 s i = .ok none := by
  simp only [getFinal40, h.fieldOffset, Res.ok_bind]
  by_cases hi : i < s.idx.length
  · have hb' : blob fs i = [] := by rcases hb with h | h; omega; exact h
    simp [hi, entryOf, hb', Entry.zero]
  · simp [hi]

theorem getWide_absent {r : Nat} {s : St} {fs : List Bytes} (h : Rep r s fs) (i : Nat)
    (hb : s.idx.length ≤ i ∨ blob fs i = []) : getWide s i = .ok none := by
  simp only [getWide, h.fieldOffset, Res.ok_bind]
  by_cases hi : i < s.idx.length
  · have hb' : blob fs i = [] := by rcases hb with h | h; omega; exact h
    simp [hi, entryOf, hb', Entry.zero]
  · simp [hi]

theorem getBytes_absent {r : Nat} {s : St} {fs : List Bytes} (h : Rep r s fs) (i : Nat)
    (hb : s.idx.length ≤ i ∨ blob fs i = []) : getBytes s i = .ok [] := by
  simp only [getBytes, h.fieldOffset, Res.ok_bind]
  by_cases hi : i < s.idx.length
  · have hb' : blob fs i = [] := by rcases hb with h | h; omega; exact h
    simp [hi, entryOf, hb', Entry.zero]
  · simp [hi]

theorem fieldBytes_absent {r : Nat} {s : St} {fs : List Bytes} (h : Rep r s fs) (i : Nat)
    (hb : s.idx.length ≤ i ∨ blob fs i = []) : fieldBytes s i = .ok none := by
  simp only [fieldBytes, h.fieldOffset, Res.ok_bind]
  by_cases hi : i < s.idx.length
  · have hb' : blob fs i = [] := by rcases hb with h | h; omega; exact h
    simp [hi, entryOf, hb', Entry.zero]
  · simp [hi]

theorem getListNums_absent {r : Nat} {s : St} {fs : List Bytes} (h : Rep r s fs) (i : Nat)
    (hb : s.idx.length ≤ i ∨ blob fs i = []) (k : NTy) : getListNums k s i = .ok none := by
  simp only [getListNums, h.fieldOffset, Res.ok_bind]
  by_cases hi : i < s.idx.length
  · have hb' : blob fs i = [] := by rcases hb with h | h; omega; exact h
    simp [hi, entryOf, hb', Entry.zero]
  · simp [hi]

theorem getAnyRaw_absent {r : Nat} {s : St} {fs : List Bytes} (h : Rep r s fs) (i : Nat)
    (hb : s.idx.length ≤ i ∨ blob fs i = []) : getAnyRaw s i = .ok none := by
  simp only [getAnyRaw, h.fieldOffset, Res.ok_bind]
  by_cases hi : i < s.idx.length
  · have hb' : blob fs i = [] := by rcases hb with h | h; omega; exact h
    simp [hi, entryOf, hb', Entry.zero]
  · simp [hi]

theorem listAnyField_absent {r : Nat} {s : St} {fs : List Bytes} (h : Rep r s fs) (i : Nat)
    (hb : s.idx.length ≤ i ∨ blob fs i = []) : listAnyField s i = .ok none := by
  simp only [listAnyField, h.fieldOffset, Res.ok_bind]
  by_cases hi : i < s.idx.length
  · have hb' : blob fs i = [] := by rcases hb with h | h; omega; exact h
    simp [hi, entryOf, hb', Entry.zero]
  · simp [hi]

theorem getMap_absent {r : Nat} {s : St} {fs : List Bytes} (h : Rep r s fs) (i : Nat)
    (hb : s.idx.length ≤ i ∨ blob fs i = []) (kt : KTy) (vt : VTy) : getMap kt vt s i = .ok none := by
  simp only [getMap, h.fieldOffset, Res.ok_bind]
  by_cases hi : i < s.idx.length
  · have hb' : blob fs i = [] := by rcases hb with h | h; omega; exact h
    simp [hi, entryOf, hb', Entry.zero]
  · simp [hi]

theorem get_absent {r : Nat} {s : St} {fs : List Bytes} (h : Rep r s fs) (i : Nat)
    (hb : s.idx.length ≤ i ∨ blob fs i = []) (t : STy) : t.get s i = .ok t.zero := by
  cases t <;> simp [STy.get, STy.zero, getBool, getInt8, getInt16, getInt32, getInt64, getUint8,
    getUint16, getUint32, getUint64, getFloat32, getFloat64, getFinal40_absent h i hb,
    getWide_absent h i hb, getBytes_absent h i hb, getListBools, getListItems,
    fieldBytes_absent h i hb, getListNums_absent h i hb, getAnyRaw_absent h i hb, getListAnys,
    getListAnyLen, listAnyField_absent h i hb, getListAnyFrom, getMap_absent h i hb]

theorem getFinal40_hdr {r : Nat} {s : St} {fs : List Bytes} (h : Rep r s fs) {i ft f : Nat} {tl : Bytes}
    (hi : i < s.idx.length) (hb : blob fs i = hdr i ft f ++ tl) (hi' : i < 2 ^ 16) (hft : ft < 2 ^ 8)
    (hf : f < 2 ^ 40) : getFinal40 s i = .ok (some f) := by
  have hlen := h.len
  obtain ⟨A, B, hd, hA⟩ := h.split (i := i) (by omega)
  have hne : blob fs i ≠ [] := by
    intro e; have : (blob fs i).length = 0 := by rw [e]; rfl
    rw [hb] at this; simp at this
  simp only [getFinal40, h.fieldOffset, Res.ok_bind, hi, if_true, entryOf, hne, if_false]
  rw [if_neg (by intro e; exact hne (List.length_eq_zero_iff.mp e))]
  rw [hb] at hd
  have := Seg.sub_eq { s with idx := idxOf s.idx.length fs, parsed := true }.seg A (hdr i ft f) (tl ++ B)
    (by simp [hd]) (A.length + HeaderSize) (by simp [HeaderSize])
  rw [hA] at this
  simp only at this ⊢
  have hdec := decodeHeader_hdr hi' hft hf []
  rw [List.append_nil] at hdec
  rw [this]
  simp [hdec]

theorem getWide_hdr {r : Nat} {s : St} {fs : List Bytes} (h : Rep r s fs) {i ft f v : Nat}
    (hi : i < s.idx.length) (hb : blob fs i = hdr i ft f ++ putLE 8 v) (hv : v < 2 ^ 64) :
    getWide s i = .ok (some v) := by
  have hlen := h.len
  obtain ⟨A, B, hd, hA⟩ := h.split (i := i) (by omega)
  have hne : blob fs i ≠ [] := by
    intro e; have : (blob fs i).length = 0 := by rw [e]; rfl
    rw [hb] at this; simp at this
  simp only [getWide, h.fieldOffset, Res.ok_bind, hi, if_true, entryOf, hne, if_false]
  rw [if_neg (by intro e; exact hne (List.length_eq_zero_iff.mp e))]
  rw [hb] at hd
  have hdrop : s.seg.data.drop (offsetOf fs i + HeaderSize) = putLE 8 v ++ B := by
    rw [hd, ← hA, show A.length + HeaderSize = (A ++ hdr i ft f).length by simp [HeaderSize]]
    rw [show A ++ (hdr i ft f ++ putLE 8 v) ++ B = (A ++ hdr i ft f) ++ (putLE 8 v ++ B) by simp]
    exact List.drop_left
  have hlen' : ¬ offsetOf fs i + HeaderSize > s.seg.data.length := by
    rw [hd, ← hA]; simp [HeaderSize]
  rw [if_neg hlen']
  simp only [hdrop]
  rw [if_neg (by simp)]
  have : (putLE 8 v ++ B).take 8 = putLE 8 v := List.take_left' (by simp)
  rw [this, getLE_putLE_of_lt (by omega)]
  rfl

theorem getBytes_hdr {r : Nat} {s : St} {fs : List Bytes} (h : Rep r s fs) {i ft : Nat} {v p : Bytes}
    (hi : i < s.idx.length) (hb : blob fs i = hdr i ft v.length ++ (v ++ p)) (hi' : i < 2 ^ 16)
    (hft : ft < 2 ^ 8) (hv : v.length < 2 ^ 40) : getBytes s i = .ok v := by
  have hlen := h.len
  obtain ⟨A, B, hd, hA⟩ := h.split (i := i) (by omega)
  have hne : blob fs i ≠ [] := by
    intro e; have : (blob fs i).length = 0 := by rw [e]; rfl
    rw [hb] at this; simp at this
  simp only [getBytes, h.fieldOffset, Res.ok_bind, hi, if_true, entryOf, hne, if_false]
  rw [if_neg (by intro e; exact hne (List.length_eq_zero_iff.mp e))]
  rw [hb] at hd
  have h1 := Seg.sub_eq s.seg A (hdr i ft v.length) (v ++ p ++ B)
    (by simp [hd]) (A.length + HeaderSize) (by simp [HeaderSize])
  have h2 := Seg.sub_eq s.seg (A ++ hdr i ft v.length) v (p ++ B)
    (by simp [hd]) (A.length + HeaderSize + v.length) (by simp [HeaderSize])
  rw [hA] at h1 h2
  simp only [List.length_append, hdr_length, hA] at h2
  have hdec := decodeHeader_hdr hi' hft hv []
  rw [List.append_nil] at hdec
  rw [h1]
  simp only [Res.ok_bind, hdec, Res.ofOption_some]
  split
  · rename_i e; simp [List.length_eq_zero_iff.mp e]
  · exact h2

theorem fieldBytes_present {r : Nat} {s : St} {fs : List Bytes} (h : Rep r s fs) {i : Nat}
    (hi : i < s.idx.length) (hb : 8 ≤ (blob fs i).length) :
    fieldBytes s i = .ok (some (blob fs i)) := by
  have hlen := h.len
  obtain ⟨A, B, hd, hA⟩ := h.split (i := i) (by omega)
  have hne : blob fs i ≠ [] := by intro e; rw [e] at hb; simp at hb
  simp only [fieldBytes, h.fieldOffset, Res.ok_bind, hi, if_true, entryOf, hne, if_false]
  rw [if_neg (by intro e; exact hne (List.length_eq_zero_iff.mp e))]
  have h1 := Seg.sub_eq s.seg A (blob fs i) B hd (A.length + (blob fs i).length) rfl
  rw [hA] at h1
  rw [h1]
  simp only [Res.ok_bind, HeaderSize]
  rw [if_neg (by omega)]
  rfl

theorem getListNums_hdr {r : Nat} {s : St} {fs : List Bytes} (h : Rep r s fs) {i : Nat} (k : NTy)
    (v : List k.Val) (hi : i < s.idx.length) (hi' : i < 2 ^ 16)
    (hb : blob fs i = hdr i k.ft (8 + v.length * k.size) ++ numData k v)
    (hv : 8 + v.length * k.size < 2 ^ 40) :
    getListNums k s i = .ok (some ⟨numData k v, v.length⟩) := by
  have hlen := h.len
  obtain ⟨A, B, hd, hA⟩ := h.split (i := i) (by omega)
  have hbl : (blob fs i).length = 8 + v.length * k.size := by rw [hb]; simp
  have hne : blob fs i ≠ [] := by intro e; rw [e] at hbl; simp at hbl; omega
  simp only [getListNums, h.fieldOffset, Res.ok_bind, hi, if_true, entryOf, hne, if_false]
  rw [if_neg (by intro e; exact hne (List.length_eq_zero_iff.mp e))]
  have h1 := Seg.sub_eq s.seg A (blob fs i) B hd (A.length + (blob fs i).length) rfl
  have h2 := Seg.sub_eq s.seg (A ++ hdr i k.ft (8 + v.length * k.size)) (numData k v) B
    (by rw [hd, hb]; simp) (A.length + 8 + v.length * k.size) (by simp)
  rw [hA] at h1
  simp only [List.length_append, hdr_length, hA] at h2
  have hkft : k.ft < 2 ^ 8 := by cases k <;> decide
  have hdec := decodeHeader_hdr hi' hkft hv (numData k v)
  rw [← hb] at hdec
  rw [h1]
  simp only [Res.ok_bind, HeaderSize, hdec, Res.ofOption_some, Nat.add_sub_cancel_left,
    Nat.mul_div_cancel _ k.size_pos]
  rw [if_neg (by omega), if_neg (by omega), h2]
  simp

theorem itemBytes_mem (v : List Bytes) : ∀ x ∈ v, 4 + x.length ≤ itemBytes v := by
  induction v with
  | nil => simp
  | cons y v ih =>
    intro x hx
    simp only [itemBytes, List.map_cons, List.sum_cons] at ih ⊢
    rcases List.mem_cons.mp hx with h | h
    · subst h; omega
    · have := ih x h; omega

/-- Items of a clean list are decoded as they were. -/
theorem parseItems_clean (v : List Bytes) (hs : 8 + (itemBytes v + 7) / 8 * 8 < 2 ^ 32)
    (hc : itemBytes v % 8 = 0 ∨ 4 < itemBytes v % 8) :
    parseItems (itemsData v ++ zeros (paddingNeeded (itemsSize v))) = v := by
  have hle : ∀ x ∈ v, x.length < 2 ^ 32 := by
    intro x hx
    have := itemBytes_mem v x hx
    omega
  rw [parseItems_eq v hle, parseItems_zeros _ (paddingNeeded_lt _)]
  have : paddingNeeded (itemsSize v) / 4 = 0 := by
    rw [← itemBytes_eq]; simp only [paddingNeeded]; split <;> omega
  rw [this]; simp

theorem getListItems_hdr {r : Nat} {s : St} {fs : List Bytes} (h : Rep r s fs) {i ft f : Nat}
    {tl : Bytes} (hi : i < s.idx.length) (hb : blob fs i = hdr i ft f ++ tl) :
    getListItems s i = .ok (some (parseItems tl)) := by
  simp only [getListItems, fieldBytes_present h hi (by rw [hb]; simp), Res.ok_bind, hb]
  rw [List.drop_left' (by simp [HeaderSize])]
  rfl

/-- The bytes of a field that is there. -/
theorem field_sub {r : Nat} {s : St} {fs : List Bytes} (h : Rep r s fs) {i : Nat}
    (hi : i < s.idx.length) (hb : blob fs i ≠ []) :
    ∃ s', s.fieldOffset i = .ok ((offsetOf fs i, (blob fs i).length), s') ∧ s'.seg = s.seg ∧
      s.seg.sub (offsetOf fs i) (offsetOf fs i + (blob fs i).length) = .ok (blob fs i) := by
  have hlen := h.len
  obtain ⟨A, B, hd, hA⟩ := h.split (i := i) (by omega)
  refine ⟨{ s with idx := idxOf s.idx.length fs, parsed := true }, ?_, ?_, ?_⟩
  · rw [h.fieldOffset]; simp [hi, entryOf, hb]
  · rfl
  · have h1 := Seg.sub_eq s.seg A (blob fs i) B hd (A.length + (blob fs i).length) rfl
    rw [hA] at h1
    exact h1

theorem getAnyRaw_hdr {r : Nat} {s : St} {fs : List Bytes} (h : Rep r s fs) {i f : Nat} (a : AnyVal)
    (hi : i < s.idx.length) (hi' : i < 2 ^ 16) (hf : f < 2 ^ 40) (ha : a.typeHash.length = 16)
    (hb : blob fs i = hdr i FTAny f ++ a.enc) : getAnyRaw s i = .ok (some a) := by
  have hl := AnyVal.enc_length a
  obtain ⟨s', h1, h2, h3⟩ := field_sub h hi (by intro e; rw [e] at hb; have := congrArg List.length hb; simp at this; omega)
  have hlen : (blob fs i).length = 24 + a.data.length := by rw [hb]; simp [hl]; omega
  have hdec := decodeHeader_hdr hi' (ft := FTAny) (by decide) hf []
  rw [List.append_nil] at hdec
  have e1 : (blob fs i).take HeaderSize = hdr i FTAny f := by rw [hb]; exact List.take_left' (by simp [HeaderSize])
  have e2 : slice (blob fs i) HeaderSize (HeaderSize + AnyHashSize) = a.typeHash := by
    rw [hb, AnyVal.enc_eq ha, ← List.append_assoc]
    exact slice_at _ _ _ (by simp [HeaderSize]) (by simp [HeaderSize, AnyHashSize, ha])
  have e3 : (blob fs i).drop (HeaderSize + AnyHashSize) = a.data := by
    rw [hb, AnyVal.enc_eq ha, ← List.append_assoc]
    exact List.drop_left' (by simp [HeaderSize, AnyHashSize, ha])
  simp only [getAnyRaw, h1, Res.ok_bind, h2, h3]
  rw [if_neg (by simp only [HeaderSize, AnyHashSize]; omega), e1, hdec, e2, e3]
  simp

theorem listAnyField_hdr {r : Nat} {s : St} {fs : List Bytes} (h : Rep r s fs) {i f : Nat} (tl : Bytes)
    (hi : i < s.idx.length) (hi' : i < 2 ^ 16) (hf : f < 2 ^ 40)
    (hb : blob fs i = hdr i FTListAny f ++ tl) : listAnyField s i = .ok (some (blob fs i, f)) := by
  have hlen : (blob fs i).length = 8 + tl.length := by rw [hb]; simp
  obtain ⟨s', h1, h2, h3⟩ := field_sub h hi (by intro e; rw [e] at hlen; simp at hlen; omega)
  have hdec := decodeHeader_hdr hi' (ft := FTListAny) (by decide) hf []
  rw [List.append_nil] at hdec
  have e1 : (blob fs i).take HeaderSize = hdr i FTListAny f := by rw [hb]; exact List.take_left' (by simp [HeaderSize])
  simp only [listAnyField, h1, Res.ok_bind, h2, h3]
  rw [if_neg (by simp only [HeaderSize]; omega), e1, hdec]
  simp

theorem getListAnyRaw_hdr {r : Nat} {s : St} {fs : List Bytes} (h : Rep r s fs) {i : Nat} (v : List AnyVal)
    (hi : i < s.idx.length) (hi' : i < 2 ^ 16) (hf : v.length < 2 ^ 40) (hst : ∀ a ∈ v, a.Storable)
    (hb : blob fs i = hdr i FTListAny v.length ++ anysEnc v) (j : Nat) : getListAnyRaw s i j = .ok v[j]? := by
  simp only [getListAnyRaw, listAnyField_hdr h _ hi hi' hf hb, Res.ok_bind]
  split
  · rw [List.getElem?_eq_none (by omega)]; rfl
  · rw [findAny_enc j v (blob fs i) (hdr i FTListAny v.length) [] HeaderSize 0 (by rw [hb]; simp) (by simp [HeaderSize])
      hst (by omega)]
    rfl

theorem getListAnyFrom_hdr {r : Nat} {s : St} {fs : List Bytes} (h : Rep r s fs) {i : Nat} (v : List AnyVal)
    (hi : i < s.idx.length) (hi' : i < 2 ^ 16) (hf : v.length < 2 ^ 40) (hst : ∀ a ∈ v, a.Storable)
    (hb : blob fs i = hdr i FTListAny v.length ++ anysEnc v) : ∀ n j, j + n = v.length →
    getListAnyFrom s i n j = .ok (v.drop j) := by
  intro n
  induction n with
  | zero => intro j hj; rw [List.drop_of_length_le (by have := hj; simp at this; omega)]; rfl
  | succ n ih =>
    intro j hj
    simp only [getListAnyFrom, getListAnyRaw_hdr h v hi hi' hf hst hb, ih (j + 1) (by omega), Res.ok_bind]
    have hj' : j < v.length := by omega
    rw [List.getElem?_eq_getElem hj', List.drop_eq_getElem_cons hj']
    simp

theorem getMap_hdr {r : Nat} {s : St} {fs : List Bytes} (h : Rep r s fs) {i f : Nat} (kt : KTy) (vt : VTy)
    (es : List (kt.Val × vt.Val)) (hi : i < s.idx.length) (hst : ∀ e ∈ es, vt.Storable e.2)
    (hs : entryBytes kt vt es < 2 ^ 32)
    (hb : blob fs i = hdr i FTMap f ++ (entriesEnc kt vt es ++ zeros (paddingNeeded (entryBytes kt vt es)))) :
    getMap kt vt s i = .ok (some
      ⟨es.map Prod.fst ++ List.replicate (phantoms kt vt (paddingNeeded (entryBytes kt vt es))) kt.zero,
       es.map Prod.snd ++ List.replicate (phantoms kt vt (paddingNeeded (entryBytes kt vt es))) vt.zero, false⟩) := by
  have hne : (blob fs i).length ≠ 0 := by rw [hb]; simp
  obtain ⟨s', h1, h2, h3⟩ := field_sub h hi (by intro e; rw [e] at hne; simp at hne)
  simp only [getMap, h1, Res.ok_bind, h2, h3]
  rw [if_neg hne, hb, parseMap_blob kt vt _ (by simp) es hst hs _ (paddingNeeded_lt _)]
  rfl

theorem zip_fst_snd {α β : Type} (es : List (α × β)) : (es.map Prod.fst).zip (es.map Prod.snd) = es := by
  induction es with
  | nil => rfl
  | cons e es ih => simp [ih]

/-- A clean value is storable. -/
theorem STy.Clean.storable {t : STy} {v : t.Val} (h : t.Clean v) : t.Storable v := by
  cases t <;> simp only [STy.Clean, STy.Storable] at h ⊢
  case map kt vt => exact h.1
  all_goals exact h

/-- A getter returns the value whose encoding is in the field. -/
theorem get_scalar {r : Nat} {s : St} {fs : List Bytes} (h : Rep r s fs) {i : Nat} (t : STy) (v : t.Val)
    (hi : i < s.idx.length) (hi' : i < 2 ^ 16) (hz : t.isZero v = false) (hs : scalarSize t v < 2 ^ 32)
    (hc : t.Clean v) (hb : blob fs i = scalarBlob i t v) : t.get s i = .ok v := by
  have hst := hc.storable
  have hf := f40_lt t v hs hst
  have hft : t.ft < 2 ^ 8 := t.ft_lt
  have h40 := getFinal40_hdr h hi hb hi' hft hf
  cases t
  case bool =>
    simp only [STy.get, getBool, h40, Res.ok_bind]
    simp [STy.isZero] at hz; simp [STy.f40, hz]
  case i8 =>
    simp only [STy.get, getInt8, h40, STy.f40, Res.ok_bind, Res.pure_eq, UInt8.ofNat_toNat]
    rfl
  case i16 =>
    simp only [STy.get, getInt16, h40, STy.f40, Res.ok_bind, Res.pure_eq, UInt16.ofNat_toNat]
    rfl
  case i32 =>
    simp only [STy.get, getInt32, h40, STy.f40, Res.ok_bind, Res.pure_eq, UInt32.ofNat_toNat]
    rfl
  case u8 => simp [STy.get, getUint8, h40, STy.f40]
  case u16 => simp [STy.get, getUint16, h40, STy.f40]
  case u32 => simp [STy.get, getUint32, h40, STy.f40]
  case f32 => simp [STy.get, getFloat32, h40, STy.f40]
  case i64 =>
    have := getWide_hdr h hi hb v.toUInt64.toNat_lt
    simp only [STy.get, getInt64, this, Res.ok_bind, Res.pure_eq, UInt64.ofNat_toNat]
    rfl
  case u64 =>
    have := getWide_hdr h hi hb v.toNat_lt
    simp [STy.get, getUint64, this]
  case f64 =>
    have := getWide_hdr h hi hb v.bits.toNat_lt
    simp [STy.get, getFloat64, this]
  case bytes => exact getBytes_hdr h hi hb hi' hft hf
  case str => exact getBytes_hdr h hi hb hi' hft hf
  case lbool =>
    have hdec := decodeHeader_hdr hi' hft hf (STy.tail .lbool v)
    simp only [STy.get, getListBools, fieldBytes_present h hi (by rw [hb]; simp [scalarBlob]),
      Res.ok_bind, hb, scalarBlob, hdec, Res.ofOption_some]
    have := unpackBools_eq v (hdr i FTListBools v.length) (boolsTail v) (by simp) v.length 0
      (by simp) (by simp; omega) (fun j _ => boolsTail_bit v j)
    simp only [STy.ft, STy.f40, STy.tail, this, Res.ok_bind, List.drop_zero]
    rfl
  case lnum k =>
    simp only [STy.get, getListNums_hdr h k v hi hi' hb hf, Res.ok_bind, nums_slice]
  case lstr =>
    simp only [STy.get, getListItems_hdr h hi hb, Res.ok_bind, STy.tail]
    rw [parseItems_clean v hs hc]; rfl
  case lbytes =>
    simp only [STy.get, getListItems_hdr h hi hb, Res.ok_bind, STy.tail]
    rw [parseItems_clean v hs hc]; rfl
  case any =>
    cases v with
    | none => simp [STy.isZero] at hz
    | some a => exact getAnyRaw_hdr h a hi hi' hf hst hb
  case lany =>
    simp only [STy.get, getListAnys, getListAnyLen, listAnyField_hdr h _ hi hi' hf hb, Res.ok_bind, Res.pure_eq]
    have := getListAnyFrom_hdr h v hi hi' hf hst hb v.length 0 (by omega)
    simpa [STy.f40] using this
  case map kt vt =>
    simp only [scalarSize] at hs
    have hp : phantoms kt vt (paddingNeeded (entryBytes kt vt v)) = 0 := by
      have := hc.2
      rwa [show (entryBytes kt vt v + 7) / 8 * 8 - entryBytes kt vt v = paddingNeeded (entryBytes kt vt v) by
        have := paddingNeeded_sum (entryBytes kt vt v); omega] at this
    simp only [STy.get, getMap_hdr h kt vt v hi hst.1 (by omega) hb, Res.ok_bind, hp]
    simp [zip_fst_snd]

/-! ### Nested structs -/

/-- Pad the fields to at least `m` numbers. -/
def padTo (m : Nat) (fs : List Bytes) : List Bytes := fs ++ List.replicate (m - fs.length) []

theorem padTo_flatten (m : Nat) (fs : List Bytes) : (padTo m fs).flatten = fs.flatten := by
  simp [padTo]

theorem padTo_length (m : Nat) (fs : List Bytes) : m ≤ (padTo m fs).length := by
  simp [padTo]; omega

theorem blob_padTo (m : Nat) (fs : List Bytes) (i : Nat) : blob (padTo m fs) i = blob fs i := by
  simp only [blob, padTo, List.getD_eq_getElem?_getD]
  by_cases hi : i < fs.length
  · rw [List.getElem?_append_left hi]
  · rw [List.getElem?_append_right (by omega), List.getElem?_eq_none (l := fs) (by omega)]
    rw [List.getElem?_replicate]; split <;> rfl

theorem total_padTo (m : Nat) (fs : List Bytes) : total (padTo m fs) = total fs := by
  simp [total, padTo_flatten]

theorem WFs.padTo {fs : List Bytes} (h : WFs fs) (m : Nat) : WFs (padTo m fs) := by
  intro i; rw [blob_padTo]; exact h i

theorem getNested_absent {r : Nat} {s : St} {fs : List Bytes} (h : Rep r s fs) (i m : Nat)
    (hb : s.idx.length ≤ i ∨ blob fs i = []) : getNestedStruct s i m = .ok none := by
  simp only [getNestedStruct, h.fieldOffset, Res.ok_bind]
  by_cases hi : i < s.idx.length
  · have hb' : blob fs i = [] := by rcases hb with h | h; omega; exact h
    simp [hi, entryOf, hb', Entry.zero]
  · simp [hi]

theorem getNested_present {r : Nat} {s : St} {fs gs : List Bytes} (h : Rep r s fs) {i : Nat} (m : Nat)
    (hi : i < s.idx.length) (hb : blob fs i = hdr i FTStruct (total gs) ++ gs.flatten) (wf : WFs gs) :
    ∃ c, getNestedStruct s i m = .ok (some c) ∧ Rep i c (padTo m gs) ∧ c.idx.length = m := by
  have hlen := h.len
  obtain ⟨A, B, hd, hA⟩ := h.split (i := i) (by omega)
  have hblen : (blob fs i).length = total gs := by rw [hb]; simp [total]
  have hne : blob fs i ≠ [] := by
    intro e; rw [e] at hblen; simp [total] at hblen; omega
  have hsm : total gs < 2 ^ 32 := by
    have := offsetOf_le_total fs i; have := h.small; omega
  simp only [getNestedStruct, h.fieldOffset, Res.ok_bind, hi, if_true, entryOf, hne, if_false]
  rw [if_neg (by intro e; exact hne (List.length_eq_zero_iff.mp e))]
  have h1 := Seg.sub_eq s.seg A (blob fs i) B hd (A.length + (blob fs i).length) rfl
  rw [hA] at h1
  rw [h1]
  simp only [Res.ok_bind]
  have hp := parse_rep (r := i) (s := ⟨⟨blob fs i, (s.seg.data ++ s.seg.spare).drop (offsetOf fs i + (blob fs i).length)⟩,
    List.replicate m Entry.zero, false, false, none, false, []⟩) (fs := padTo m gs)
    (by simp only [total_padTo, padTo_flatten]; exact hb) (wf.padTo m) (by rw [total_padTo]; exact hsm)
    (by intro j hj _; simp at hj; simp [hj])
  rw [hp]
  refine ⟨_, rfl, ⟨?_, ?_, wf.padTo m, by rw [total_padTo]; exact hsm, ?_, ?_⟩, by simp⟩
  · simp only [total_padTo, padTo_flatten]; exact hb
  · simp; exact padTo_length m gs
  · simp
  · intro _ j hj hbj
    simp only [idxOf_length, List.length_replicate] at hj ⊢
    rw [idxOf_getElem?, if_pos hj]; simp [entryOf, hbj]

theorem structBlob_wf (i : Nat) (hi : i < 2 ^ 16) (gs : List Bytes) (hs : total gs < 2 ^ 32) :
    WFBlob i (hdr i FTStruct (total gs) ++ gs.flatten) := by
  refine ⟨by simp, FTStruct, total gs, by decide, ?_, ?_⟩
  · intro rest
    rw [List.append_assoc]
    exact decodeHeader_hdr hi (by decide) (by omega) _
  · intro rest
    simp +decide [fieldSizeAt, total]

end Claw
