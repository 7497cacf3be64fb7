import Verif.Lemmas.IsSet
import Verif.Props.Struct

/-!
# C17: IsSet tracking

`runTracked m ops` is the client program of C03 on a struct of a package with the `IsSet` option
(struct.tmpl:2-17 turns tracking on in the constructor).
-/

namespace Claw

set_option linter.unusedSimpArgs false

/-- struct.tmpl:12-19: the constructor of a package with the `IsSet` option, then the calls. -/
def runTracked (m : Nat) (ops : List Op) : Res St := do
  let s ← St.new m
  runOps ops (s.setIsSetEnabled true)

theorem tracked_rep (m : Nat) (ops : List Op) (hfit : Within m ops) :
    ∃ s b, runTracked m ops = .ok s ∧ Rep 0 s (encs (specRun m ops) 0) ∧ s.idx.length = m ∧
      s.isSetEnabled = true ∧ s.isSetBits = some b ∧ RawBits m (marked ops) b := by
  obtain ⟨s0, h0, hr, hl, _, _, hn, _⟩ := new_rep m
  obtain ⟨b0, hb0, hw0, heq⟩ := enable_bits s0 hn
  have hr' : Rep 0 (s0.setIsSetEnabled true) (encs (List.replicate m .absent) 0) := by
    rw [heq]; exact ⟨hr.data, hr.len, hr.wf, hr.small, hr.idx_parsed, hr.idx_unparsed⟩
  have hl' : (s0.setIsSetEnabled true).idx.length = m := by rw [heq]; exact hl
  have he' : (s0.setIsSetEnabled true).isSetEnabled = true := by rw [heq]
  obtain ⟨s, b, h1, h2, h3, h5, h6⟩ := ops_bits ops hr' (by simp [hl']) (by simpa using hfit.1)
    (by rw [hl']; exact hfit.2) he' hb0 (by rw [hl', ← hl]; exact hw0)
  refine ⟨s, b, by simp [runTracked, h0, h1], h2, by rw [h3.len, hl'], by rw [h3.enabled, he'], h5, ?_⟩
  rw [hl'] at h6
  simpa using h6

/-- **C17 (a)** What Marshal appends, exactly: after the fields a bit field with the bit of a field on
iff some call of the program gave it a value that is not zero through a tracked setter. Later clears do
not switch it off, lists and maps are not tracked. -/
theorem C17_bits_exact (m : Nat) (ops : List Op) (hfit : Within m ops) :
    ∃ s bits s', runTracked m ops = .ok s ∧
      s.marshal = .ok (hdr 0 FTStruct (8 + sizes (specRun m ops) + bits.length)
        ++ (encs (specRun m ops) 0).flatten ++ bits, s') ∧
      IsSetField m (marked ops) bits := by
  obtain ⟨s, b, h1, h2, h3, h5, h6, h7⟩ := tracked_rep m ops hfit
  obtain ⟨bits, s', e1, e2, _⟩ := marshal_isset h2 h5 h6 h7 h3 hfit.1
  refine ⟨s, bits, s', h1, ?_, e2⟩
  rw [e1, total, encs_flatten_length]

example := C17_bits_exact 8 demoOps demo_fits.within

/-- Is field `i` of the record set? -/
def isSet (vs : List Val) (i : Nat) : Bool := !(vs.getD i .absent).isAbsent

/-- The call sets a field for good: a tracked setter with a value that is not zero, or a read. -/
def Op.plain : Op → Bool
  | .set _ t v => !t.isList && !t.isMap && !t.isZero v
  | .nest _ m ops => !(specStruct (specRun m ops)).isAbsent
  | .peek => true
  | _ => false

theorem marks_isSet (m : Nat) (ops : List Op) : ∀ (vs : List Val), (∀ op ∈ ops, op.plain = true) →
    vs.length = m → ∀ i, i < m → isSet (specOps ops vs) i = (isSet vs i || marked ops i) := by
  induction ops with
  | nil => intro vs _ _ i _; simp [specOps, marked]
  | cons op ops ih =>
    intro vs hp hl i hi
    have h1 := hp op (by simp)
    rw [specOps, ih _ (fun o ho => hp o (by simp [ho])) (by rw [spec_length, hl]) i hi]
    have e : isSet (op.spec vs) i = (isSet vs i || op.marks i) := by
      match op with
      | .set fn t v =>
        simp only [Op.plain, Bool.and_eq_true, Bool.not_eq_true'] at h1
        simp only [Op.spec, isSet, List.getD_eq_getElem?_getD, List.getElem?_set, Op.marks, h1.1.1, h1.1.2, h1.2]
        by_cases hf : fn = i
        · subst hf; rw [hl]; simp [hi, isAbsent_specScalar, h1.2]
        · simp [hf]
      | .nest fn k c =>
        simp only [Op.plain, Bool.not_eq_true'] at h1
        simp only [Op.spec, isSet, List.getD_eq_getElem?_getD, List.getElem?_set, Op.marks, h1]
        by_cases hf : fn = i
        · subst hf; rw [hl, if_pos rfl, if_pos hi]; show (!(specStruct (specRun k c)).isAbsent) = _; rw [h1]; simp
        · simp [hf]
      | .peek => simp [Op.spec, Op.marks]
    rw [e]; simp [marked, Bool.or_assoc]

/-- **C17 (b), partial** For programs that only set fields (no clearing, no zero values) and use no list
or map field, the bits are on exactly for the fields that are set. Missing: the other programs, for
which it is false (below). -/
theorem C17_bits_faithful_partial (m : Nat) (ops : List Op) (hfit : Within m ops)
    (hplain : ∀ op ∈ ops, op.plain = true) :
    ∃ s bits s', runTracked m ops = .ok s ∧
      s.marshal = .ok (hdr 0 FTStruct (8 + sizes (specRun m ops) + bits.length)
        ++ (encs (specRun m ops) 0).flatten ++ bits, s') ∧
      IsSetField m (isSet (specRun m ops)) bits := by
  obtain ⟨s, bits, s', h1, h2, h3⟩ := C17_bits_exact m ops hfit
  refine ⟨s, bits, s', h1, h2, h3.1, ?_⟩
  intro j k x hx hk
  rw [h3.2 j k x hx hk]
  by_cases hk7 : k = 7
  · simp [hk7]
  · simp only [hk7, if_false]
    by_cases hlt : 7 * j + k < m
    · have := marks_isSet m ops (List.replicate m .absent) hplain (by simp) (7 * j + k) hlt
      rw [show specRun m ops = specOps ops (List.replicate m .absent) from rfl, this]
      simp [isSet, List.getElem?_replicate, hlt, Val.isAbsent]
    · simp [hlt]

/-- A witness: three of ten fields set. -/
def trackDemo : List Op := [.set 2 .i32 7, .nest 8 1 [.set 0 .bool true], .peek, .set 0 .str [104], .set 2 .i32 9]

theorem trackDemo_fits : Fits 10 trackDemo := by
  refine ⟨by decide, ?_⟩
  simp +decide [trackDemo, FitsFrom, Op.Fits, Op.spec, specOps, specScalar, specStruct, Val.isAbsent,
    STy.isZero, sizes, Val.size, scalarSize, List.replicate, STy.Clean, STy.Storable]

example := C17_bits_faithful_partial 10 trackDemo trackDemo_fits.within (by
  simp +decide [trackDemo, Op.plain, STy.isList, STy.isMap, STy.isZero, specRun, specOps, Op.spec, specStruct,
    specScalar, Val.isAbsent, List.replicate])

/-- The bytes a program sends. -/
def trackedMsg (m : Nat) (ops : List Op) : Option Bytes :=
  match runTracked m ops with
  | .ok s =>
    match s.marshal with
    | .ok (msg, _) => some msg
    | _ => none
  | _ => none

/-- **C17 refuted (1)** A field that was set and cleared is still marked as set: the message carries no
field, its bit is on. -/
theorem C17_cleared_still_marked :
    trackedMsg 2 [.set 0 .i32 7, .clear 0] = some ([0, 0, 14, 16, 0, 0, 0, 0] ++ [1, 0, 0, 0, 0, 0, 0, 0]) := by
  decide +kernel

/-- **C17 refuted (2)** A list field that is set is not marked. -/
theorem C17_list_not_marked :
    trackedMsg 2 [.set 0 .lbool [true]] =
      some ([0, 0, 14, 32, 0, 0, 0, 0] ++ [0, 0, 41, 1, 0, 0, 0, 0, 1, 0, 0, 0, 0, 0, 0, 0] ++ [0, 0, 0, 0, 0, 0, 0, 0]) := by
  decide +kernel

/-- **C17 refuted (3)** Setting a field to its zero value explicitly, which the option exists to tell
from not setting it, leaves no mark. -/
theorem C17_zero_not_marked : trackedMsg 2 [.set 0 .i32 0] = trackedMsg 2 [] := by
  decide +kernel

/-- The second of two messages sent from one struct, with a call between. -/
def secondMsg (m : Nat) (ops : List Op) (op : Op) : Option Bytes :=
  match runTracked m ops with
  | .ok s =>
    match s.marshal with
    | .ok (_, s) =>
      match op.run s with
      | .ok s =>
        match s.marshal with
        | .ok (msg, _) => some msg
        | _ => none
      | _ => none
    | _ => none
  | _ => none

/-- **C17 refuted (4)** The first Marshal turns tracking off and leaves its bit field among the
fields: field 1, set between two Marshals, is not marked in the second message. -/
theorem C17_second_marshal_untracked :
    secondMsg 2 [.set 0 .i8 7] (.set 1 .i8 5) =
      some ([0, 0, 14, 32, 0, 0, 0, 0] ++ [0, 0, 2, 7, 0, 0, 0, 0] ++ [1, 0, 2, 5, 0, 0, 0, 0] ++ [1, 0, 0, 0, 0, 0, 0, 0]) := by
  decide +kernel

/-! ### Decoding -/

/-- The receiver's struct after the lazy parse, if the parse ends. -/
theorem received {fs : List Bytes} {bits : Bytes} (wf : WFs fs) (hs : total fs < 2 ^ 32)
    (hb : bits.length < 2 ^ 32) (n : Nat) (on : Bool) (extra : Bytes) :
    ∃ fresh s', St.new n = .ok fresh ∧
      (fresh.setIsSetEnabled on).unmarshal (hdr 0 FTStruct (total fs + bits.length) ++ fs.flatten ++ bits) extra = some s' ∧
      s'.seg = ⟨hdr 0 FTStruct (total fs + bits.length) ++ fs.flatten ++ bits, extra⟩ ∧ s'.parsed = false ∧
      s'.idx.length = n ∧
      parseLoop HeaderSize (s'.seg.data.drop HeaderSize) s'.idx
        = parseLoop (8 + fs.flatten.length) bits (idxOf n fs) := by
  have hmsg : hdr 0 FTStruct (total fs + bits.length) ++ fs.flatten ++ bits
      = hdr 0 FTStruct (total fs + bits.length) ++ (fs.flatten ++ bits) := by rw [List.append_assoc]
  generalize hM : hdr 0 FTStruct (total fs + bits.length) ++ fs.flatten ++ bits = M at *
  have hMl : M.length = total fs + bits.length := by rw [← hM]; simp [total, Nat.add_assoc]
  have hdec := decodeHeader_hdr (fn := 0) (by omega) (ft := FTStruct) (by decide)
    (by omega : total fs + bits.length < 2 ^ 40) []
  rw [List.append_nil] at hdec
  have htake : M.take HeaderSize = hdr 0 FTStruct (total fs + bits.length) := by
    rw [hmsg]; exact List.take_left' (by simp)
  have hlen : ¬ M.length < HeaderSize := by rw [hMl, total, HeaderSize]; omega
  have hnew := new_eq n
  obtain ⟨c, hc, hidx⟩ : ∃ c : St, (⟨⟨hdr 0 FTStruct 8, zeros 56⟩, List.replicate n Entry.zero, false, false, none,
    false, []⟩ : St).setIsSetEnabled on = c ∧ c.idx = List.replicate n Entry.zero := by
    refine ⟨_, rfl, ?_⟩
    simp only [St.setIsSetEnabled]; split <;> rfl
  refine ⟨_, { c with seg := ⟨M, extra⟩, parsed := false }, hnew, ?_, rfl, rfl, by simp [hidx], ?_⟩
  · rw [hc]
    simp only [St.unmarshal, hlen, if_false, htake, hdec, hMl, ne_eq, not_true_eq_false]
    rw [if_neg (by omega), ← hMl]; simp
  · have hdrop : M.drop HeaderSize = fs.flatten ++ bits := by
      rw [hmsg]; exact List.drop_left' (by simp)
    have hp := parse_fields fs bits 0 HeaderSize (List.replicate n Entry.zero) (by
      intro i; rw [Nat.zero_add]; exact wf i)
    simp only [hdrop, hidx]
    rw [hp, show HeaderSize = 8 from rfl, overlay_eq_idxOf fs (List.replicate n Entry.zero) hs
      (by intro i hi _; rw [List.length_replicate] at hi; simp [hi]), List.length_replicate]

/-- The field `i` of a message with a bit field and of the same message without. -/
theorem same_field {fs : List Bytes} {bits extra : Bytes} (s : St) (n : Nat)
    (hseg : s.seg = ⟨hdr 0 FTStruct (total fs + bits.length) ++ fs.flatten ++ bits, extra⟩)
    (hens : s.ensure = .ok { s with idx := idxOf n fs, parsed := true }) (i : Nat) (hi : i < n) :
    ∃ o z s1 c1, SameField s
      { s with seg := ⟨hdr 0 FTStruct (total fs) ++ fs.flatten, bits ++ extra⟩, idx := idxOf n fs, parsed := true }
      i o z s1 c1 ∧ z = (blob fs i).length := by
  have hidx : (idxOf n fs)[i]? = some (entryOf fs i) := by rw [idxOf_getElem?, if_pos hi]
  have hoz : (entryOf fs i).size = (blob fs i).length := by
    simp only [entryOf]; split
    · rename_i h; simp [h, Entry.zero]
    · rfl
  have hpos : (entryOf fs i).size ≠ 0 → 8 ≤ (entryOf fs i).offset := by
    simp only [entryOf]; split
    · intro h; exact absurd rfl h
    · intro _; simp only [offsetOf]; omega
  have hall : ∀ a, 8 ≤ a → ((s.seg.data ++ s.seg.spare).drop a)
      = ((hdr 0 FTStruct (total fs) ++ fs.flatten) ++ (bits ++ extra)).drop a := by
    intro a ha
    rw [hseg]
    simp only [List.append_assoc]
    have hd : ∀ (h x : Bytes), h.length = 8 → (h ++ x).drop a = x.drop (a - 8) := by
      intro h x hh
      rw [List.drop_append, List.drop_eq_nil_of_le (by omega), hh, List.nil_append]
    rw [hd _ _ (by simp), hd _ _ (by simp)]
  refine ⟨(entryOf fs i).offset, (entryOf fs i).size, { s with idx := idxOf n fs, parsed := true },
    { s with seg := ⟨hdr 0 FTStruct (total fs) ++ fs.flatten, bits ++ extra⟩, idx := idxOf n fs, parsed := true },
    ⟨?_, ?_, ?_, ?_, ?_⟩, hoz⟩
  · simp only [St.fieldOffset, hens, Res.ok_bind, hidx, Res.pure_eq]
  · simp only [St.fieldOffset, St.ensure, if_true, Res.pure_eq, Res.ok_bind, hidx]
  · intro hz a b ha'
    have ha : 8 ≤ a := by have := hpos hz; omega
    have hcap : s.seg.cap = Seg.cap ⟨hdr 0 FTStruct (total fs) ++ fs.flatten, bits ++ extra⟩ := by
      rw [hseg]; simp [Seg.cap]; omega
    simp only [Seg.sub, hcap, slice]
    rw [List.drop_take, List.drop_take, hall a ha]
  · intro hz a ha
    exact hall a (by have := hpos hz; omega)
  · have h1 := offsetOf_le_total fs i
    have : (entryOf fs i).offset + (entryOf fs i).size ≤ total fs := by
      simp only [entryOf]; split
      · simp [Entry.zero]
      · exact h1
    rw [hseg]
    simp only [List.length_append, hdr_length, total] at *
    omega

/-- **C17 (c), partial** Appending the bit field does not change what any getter returns after decoding, for
receivers of fewer than 32897 fields (the schema may differ from the sender's), unless the bits happen
to spell a field without a size: then every getter of the receiver hangs (next theorem). Missing:
larger schemas (`C17_large_schema_phantom`), final values that are not clean. -/
theorem C17_harmless_partial (m : Nat) (ops : List Op) (tys : List Ty) (on : Bool) (extra : Bytes)
    (hfit : Within m ops) (htidy : Tidies (specRun m ops)) (hty : FieldsHaveTy (specRun m ops) tys) (hlen : tys.length ≤ 32896)
    (hfr : ¬ Freezes m (marked ops)) :
    ∃ s msg s1 fresh s', runTracked m ops = .ok s ∧ s.marshal = .ok (msg, s1) ∧ St.new tys.length = .ok fresh ∧
      (fresh.setIsSetEnabled on).unmarshal msg extra = some s' ∧
      readFields tys s' 0 = .ok (viewFields tys (specRun m ops)) := by
  obtain ⟨s, b, h1, h2, h3, h5, h6, h7⟩ := tracked_rep m ops hfit
  have h4 : Canons (specRun m ops) := (ops_sound m ops _ (sounds_replicate m) hfit.2).canon htidy
  obtain ⟨bits, s1, e1, e2, _⟩ := marshal_isset h2 h5 h6 h7 h3 hfit.1
  have hm := hfit.1
  have hbl : bits.length < 2 ^ 32 := by rw [e2.1]; simp only [up8, isSetBytes]; omega
  obtain ⟨fresh, s', g1, g2, g3, g4, g5, g6⟩ := received h2.wf h2.small hbl tys.length on extra
  refine ⟨s, _, s1, fresh, s', h1, e1, g1, g2, ?_⟩
  have hpb := (parse_bits e2 hm (8 + (encs (specRun m ops) 0).flatten.length)
    (idxOf tys.length (encs (specRun m ops) 0)) (by simpa [idxOf] using hlen)).2 hfr
  have hens : s'.ensure = .ok { s' with idx := idxOf tys.length (encs (specRun m ops) 0), parsed := true } := by
    simp only [St.ensure, g4, Bool.false_eq_true, if_false, St.parseFieldIndex, g6, hpb, Res.ok_bind, Res.pure_eq]
  have hrep : Rep 0 { s' with
      seg := ⟨hdr 0 FTStruct (total (encs (specRun m ops) 0)) ++ (encs (specRun m ops) 0).flatten, bits ++ extra⟩
      idx := idxOf tys.length (encs (specRun m ops) 0)
      parsed := true } (padTo tys.length (encs (specRun m ops) 0)) := by
    refine ⟨?_, ?_, h2.wf.padTo _, by rw [total_padTo]; exact h2.small, ?_, by simp⟩
    · simp only [total_padTo, padTo_flatten]
    · simp only [idxOf, List.length_map, List.length_range]; exact padTo_length _ _
    · intro _
      simp only [idxOf, List.length_map, List.length_range]
      apply List.map_congr_left
      intro i _
      simp only [entryOf, blob_padTo]
      split
      · rfl
      · congr 1
        simp only [offsetOf, padTo]
        rw [List.take_append, List.flatten_append, List.take_replicate]
        simp
  have hvl : (specRun m ops).length = m := by simp [specRun, specOps_length]
  have hread := read_fields tys hrep h4 (by omega) 0 (by simp [idxOf])
    (by intro j ty hj; rw [Nat.zero_add]; exact hty.get j ty hj)
  have hsame : ∀ (l : List Ty) (i : Nat), i + l.length ≤ tys.length →
      (∀ j ty, l[j]? = some ty → ((specRun m ops).getD (i + j) .absent).HasTy ty) →
      readFields l s' i = readFields l { s' with
        seg := ⟨hdr 0 FTStruct (total (encs (specRun m ops) 0)) ++ (encs (specRun m ops) 0).flatten, bits ++ extra⟩
        idx := idxOf tys.length (encs (specRun m ops) 0)
        parsed := true } i := by
    intro l
    induction l with
    | nil => intro i _ _; rfl
    | cons ty l ih =>
      intro i hi hj
      simp only [List.length_cons] at hi
      obtain ⟨o, z, s2, c2, hsf, hz⟩ := same_field (bits := bits) (extra := extra) s' tys.length g3 hens i (by omega)
      have hw : ∀ t, ty = .scalar t → t = .i64 ∨ t = .u64 ∨ t = .f64 → z = 0 ∨ 16 ≤ z := by
        intro t ht hwide
        have h0 := hj 0 ty (by simp)
        rw [Nat.add_zero] at h0
        rw [hz, blob_encs]
        subst ht
        match hv : (specRun m ops).getD i .absent with
        | .absent => left; simp [Val.enc]
        | .scalar t' v =>
          rw [hv] at h0
          simp only [Val.HasTy] at h0
          subst h0
          right
          rcases hwide with rfl | rfl | rfl <;> simp [Val.enc, scalarBlob_length, scalarSize]
        | .struct vs => rw [hv] at h0; simp [Val.HasTy] at h0
        | .structs vs => rw [hv] at h0; simp [Val.HasTy] at h0
      simp only [readFields]
      rw [read_same hsf ty hw, ih (i + 1) (by omega) (by
        intro j ty' hj'
        have := hj (j + 1) ty' (by simpa using hj')
        rwa [show i + (j + 1) = i + 1 + j by omega] at this)]
  rw [hsame tys 0 (by omega) (by intro j ty hj; rw [Nat.zero_add]; exact hty.get j ty hj), hread, viewFields_eq_map]
  simp

example := C17_harmless_partial 10 trackDemo [.scalar .str, .scalar .bool, .scalar .i32] true [1, 2] trackDemo_fits.within trackDemo_fits.tidy
  (by simp +decide [trackDemo, specRun, specOps, Op.spec, specScalar, specStruct, STy.isZero, List.replicate,
    FieldsHaveTy, Val.HasTy]) (by decide) (by simp [Freezes])

theorem read_hang (ty : Ty) {s : St} (h : s.ensure = .hang) (i : Nat) : ty.read s i = .hang := by
  have hf : s.fieldOffset i = .hang := by simp only [St.fieldOffset, h, Res.hang_bind]
  have h40 : getFinal40 s i = .hang := by simp only [getFinal40, hf, Res.hang_bind]
  have hwd : getWide s i = .hang := by simp only [getWide, hf, Res.hang_bind]
  match ty with
  | .scalar t =>
    have hg : t.get s i = .hang := by
      cases t <;>
        simp only [STy.get, getBool, getInt8, getInt16, getInt32, getInt64, getUint8, getUint16, getUint32,
          getUint64, getFloat32, getFloat64, h40, hwd, getBytes, getListBools, getListNums, getListItems, getAnyRaw,
          getListAnys, getListAnyLen, listAnyField, getMap, fieldBytes, hf, Res.hang_bind]
    simp only [Ty.read, hg, Res.hang_bind]
  | .struct tys => simp only [Ty.read, getNestedStruct, hf, Res.hang_bind]
  | .structs tys => simp only [Ty.read, getListStructs, hf, Res.hang_bind]

/-- **C17 refuted (5)** If the third byte of the bit field is the code of a type with a size in its
header (struct, list, map), which happens for schemas of 15 to 21 fields, the receiver accepts the message and
then loops forever in every getter. -/
theorem C17_freezes (m n : Nat) (ops : List Op) (on : Bool) (extra : Bytes) (hfit : Within m ops) (hn : n ≤ 32896)
    (hfr : Freezes m (marked ops)) :
    ∃ s msg s1 fresh s', runTracked m ops = .ok s ∧ s.marshal = .ok (msg, s1) ∧ St.new n = .ok fresh ∧
      (fresh.setIsSetEnabled on).unmarshal msg extra = some s' ∧ ∀ (ty : Ty) (i : Nat), ty.read s' i = .hang := by
  obtain ⟨s, b, h1, h2, h3, h5, h6, h7⟩ := tracked_rep m ops hfit
  obtain ⟨bits, s1, e1, e2, _⟩ := marshal_isset h2 h5 h6 h7 h3 hfit.1
  have hm := hfit.1
  have hbl : bits.length < 2 ^ 32 := by rw [e2.1]; simp only [up8, isSetBytes]; omega
  obtain ⟨fresh, s', g1, g2, g3, g4, g5, g6⟩ := received h2.wf h2.small hbl n on extra
  refine ⟨s, _, s1, fresh, s', h1, e1, g1, g2, fun ty i => read_hang ty ?_ i⟩
  have hpb := (parse_bits e2 hm (8 + (encs (specRun m ops) 0).flatten.length)
    (idxOf n (encs (specRun m ops) 0)) (by simpa [idxOf] using hn)).1 hfr
  simp only [St.ensure, g4, Bool.false_eq_true, if_false, St.parseFieldIndex, g6, hpb, Res.hang_bind]

/-- A struct of 18 bools: set the last three, send. -/
def freezeDemo : List Op := [.set 15 .bool true, .set 16 .bool true, .set 17 .bool true]

theorem freezeDemo_fits : Fits 18 freezeDemo := by
  refine ⟨by decide, ?_⟩
  simp +decide [freezeDemo, FitsFrom, Op.Fits, Op.spec, specOps, specScalar, specStruct, Val.isAbsent,
    STy.isZero, sizes, Val.size, scalarSize, List.replicate, STy.Clean, STy.Storable]

example := C17_freezes 18 18 freezeDemo true [] freezeDemo_fits.within (by decide) (by decide +kernel)

theorem parse_phantom {m : Nat} {bits : Bytes} (h : IsSetField m (fun _ => false) bits) (hm : 57 ≤ m) (hm' : m ≤ 65536)
    (pos : Nat) (idx : List Entry) :
    parseLoop pos bits idx = .ok (recordEntry idx 32896 pos 0x8080808080) := by
  obtain ⟨hlen, hbit⟩ := h
  have h8 : 8 ≤ bits.length := by rw [hlen]; simp only [up8, isSetBytes]; omega
  match bits, h8 with
  | b0 :: b1 :: b2 :: b3 :: b4 :: b5 :: b6 :: b7 :: rest, _ =>
  have hv : ∀ j x, (b0 :: b1 :: b2 :: b3 :: b4 :: b5 :: b6 :: b7 :: rest)[j]? = some x → j < 8 → x = 128 := by
    intro j x hx hj
    have key : ∀ x : Fin 256, (∀ k : Fin 8, x.val.testBit k.val = decide (k.val = 7)) → x.val = 128 := by decide +kernel
    have := key ⟨x.toNat, x.toNat_lt⟩ (fun k => by
      rw [hbit j k.val x hx k.isLt]
      have : j + 1 < isSetBytes m := by simp only [isSetBytes]; omega
      simp [this])
    exact UInt8.toNat_inj.mp this
  obtain rfl := hv 0 b0 rfl (by omega)
  obtain rfl := hv 1 b1 rfl (by omega)
  obtain rfl := hv 2 b2 rfl (by omega)
  obtain rfl := hv 3 b3 rfl (by omega)
  obtain rfl := hv 4 b4 rfl (by omega)
  obtain rfl := hv 5 b5 rfl (by omega)
  obtain rfl := hv 6 b6 rfl (by omega)
  obtain rfl := hv 7 b7 rfl (by omega)
  have hdec : decodeHeader (128 :: 128 :: 128 :: 128 :: 128 :: 128 :: 128 :: 128 :: rest)
      = some (32896, 128, 0x8080808080) := by
    simp only [decodeHeader, HeaderSize, List.length_cons, List.take_succ_cons, List.take_zero, getLE,
      List.drop_succ_cons, List.drop_zero, List.headD_cons]
    rw [if_neg (by omega)]
    decide
  rw [parseLoop_eq, if_pos (by simp [HeaderSize]), hdec]
  simp only
  rw [if_neg (by omega), fieldSizeAt_eq_extent _ _ _ (by omega)]
  have hext : extent (128 :: 128 :: 128 :: 128 :: 128 :: 128 :: 128 :: 128 :: rest) 128 0x8080808080 = 0x8080808080 := by
    unfold extent
    repeat' split
    all_goals omega
  rw [hext, if_neg (by omega), parseLoop_eq, if_neg]
  simp only [List.length_drop, HeaderSize]
  rw [hlen]
  simp only [up8, isSetBytes]
  omega

/-- **C17 refuted (6)** With more than 32896 fields the bit field itself becomes a field: a struct with
nothing set is received with field 32896 set. -/
theorem C17_large_schema_phantom (m : Nat) (h1 : 32896 < m) (h2 : m ≤ 65536) (extra : Bytes) :
    ∃ s msg s1 fresh s', runTracked m [] = .ok s ∧ s.marshal = .ok (msg, s1) ∧ St.new m = .ok fresh ∧
      (fresh.setIsSetEnabled true).unmarshal msg extra = some s' ∧
      ∃ s'', s'.hasField 32896 = .ok (true, s'') := by
  obtain ⟨s, b, t1, t2, t3, t5, t6, t7⟩ := tracked_rep m [] ⟨h2, by simp [WithinFrom]⟩
  obtain ⟨bits, s1, e1, e2, _⟩ := marshal_isset t2 t5 t6 t7 t3 h2
  have hbl : bits.length < 2 ^ 32 := by rw [e2.1]; simp only [up8, isSetBytes]; omega
  obtain ⟨fresh, s', g1, g2, g3, g4, g5, g6⟩ := received t2.wf t2.small hbl m true extra
  refine ⟨s, _, s1, fresh, s', t1, e1, g1, g2, ?_⟩
  have e : marked [] = fun _ => false := rfl
  rw [e] at e2
  have hpb := parse_phantom (m := m) (bits := bits) e2 (by omega) h2
    (8 + (encs (specRun m []) 0).flatten.length) (idxOf m (encs (specRun m []) 0))
  have hl : (idxOf m (encs (specRun m []) 0)).length = m := by simp [idxOf]
  have hg := List.getElem?_set_self (l := idxOf m (encs (specRun m []) 0)) (i := 32896)
    (a := ⟨(8 + (encs (specRun m []) 0).flatten.length) % 2 ^ 32, 0x8080808080 % 2 ^ 32, true⟩) (by omega)
  have hr : recordEntry (idxOf m (encs (specRun m []) 0)) 32896 (8 + (encs (specRun m []) 0).flatten.length) 0x8080808080
    = (idxOf m (encs (specRun m []) 0)).set 32896
      ⟨(8 + (encs (specRun m []) 0).flatten.length) % 2 ^ 32, 0x8080808080 % 2 ^ 32, true⟩ := by simp only [recordEntry]; rw [if_pos (by omega)]
  rw [hr] at hpb
  refine ⟨{ s' with idx := ((idxOf m (encs (specRun m []) 0)).set 32896
    ⟨(8 + (encs (specRun m []) 0).flatten.length) % 2 ^ 32, 0x8080808080 % 2 ^ 32, true⟩), parsed := true }, ?_⟩
  simp only [St.hasField, St.ensure, g4, Bool.false_eq_true, if_false, St.parseFieldIndex, g6, hpb, Res.ok_bind,
    Res.pure_eq, hg]
  rfl

example := C17_large_schema_phantom 40000 (by decide) (by decide) []

end Claw
