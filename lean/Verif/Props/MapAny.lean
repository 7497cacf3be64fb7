import Verif.Props.Maps
import Verif.Props.Struct
import Verif.Props.ListCache
import Verif.Lemmas.Wire

/-!
# C14–C16: maps, Any and `[]any` through the wire

In all theorems `ops` is an arbitrary earlier program on the same struct (`Fits`), the field is written
last, the struct is marshalled, and the message is unmarshalled into a fresh struct of the same schema;
`extra` is whatever lies behind the received slice.
-/

namespace Claw

set_option linter.unusedSimpArgs false

/-- Write, marshal, unmarshal: the field of the receiver has the encoding of the value. -/
theorem send_last (m : Nat) (ops : List Op) (hfit : Within m ops) (i : Nat) (hi : i < m) (t : STy)
    (v : t.Val) (hst : t.Storable v) (hz : t.isZero v = false)
    (hs : 8 + sizes ((specRun m ops).set i (specScalar t v)) < 2 ^ 32) (extra : Bytes) :
    ∃ s msg s1 fresh s' fs, run m (ops ++ [.set i t v]) = .ok s ∧ s.marshal = .ok (msg, s1) ∧
      St.new m = .ok fresh ∧ fresh.unmarshal msg extra = some s' ∧ Rep 0 s' fs ∧ s'.idx.length = m ∧
      blob fs i = scalarBlob i t v ∧ scalarSize t v < 2 ^ 32 ∧ i < 2 ^ 16 := by
  obtain ⟨s, h1, h2, h3, h4⟩ := run_set_last m ops hfit i hi t v hst hs
  obtain ⟨msg, fresh, s', e1, e2, e3, h5, h6⟩ := receive (m := m) h2 h4 extra
  have hvl : (specRun m ops).length = m := by simp [specRun, specOps_length]
  have hsz := sizes_ge ((specRun m ops).set i (specScalar t v)) i
  simp only [List.getD_eq_getElem?_getD, List.getElem?_set_self (by omega : i < (specRun m ops).length),
    Option.getD_some, specScalar, hz, Bool.false_eq_true, if_false, Val.size] at hsz hs
  refine ⟨s, msg, s, fresh, s', _, h1, e1, e2, e3, h5, h6, ?_, by omega, by have := hfit.1; omega⟩
  rw [blob_last hi]
  simp [specScalar, hz, Val.enc]

/-! ### C14 maps -/

/-- **C14 (a)** Exactly what is read back of a map of any type: the keys and values in the order of the
sender's map, followed by one zero entry for every shortest entry that fits into the padding. -/
theorem C14_exact (m : Nat) (ops : List Op) (hfit : Within m ops) (i : Nat) (hi : i < m) (kt : KTy) (vt : VTy)
    (es : List (kt.Val × vt.Val)) (hne : es ≠ []) (hst : STy.Storable (.map kt vt) es)
    (hs : 8 + sizes ((specRun m ops).set i (specScalar (.map kt vt) es)) < 2 ^ 32) (extra : Bytes)
    (n : Nat) (hn : n = phantoms kt vt ((entryBytes kt vt es + 7) / 8 * 8 - entryBytes kt vt es)) :
    ∃ s msg s1 fresh s', run m (ops ++ [.set i (.map kt vt) es]) = .ok s ∧ s.marshal = .ok (msg, s1) ∧
      St.new m = .ok fresh ∧ fresh.unmarshal msg extra = some s' ∧
      getMap kt vt s' i = .ok (some ⟨es.map Prod.fst ++ List.replicate n kt.zero,
        es.map Prod.snd ++ List.replicate n vt.zero, false⟩) := by
  have hz : STy.isZero (.map kt vt) es = false := by
    simp only [STy.isZero, beq_eq_false_iff_ne, ne_eq, List.length_eq_zero_iff]; exact hne
  obtain ⟨s, msg, s1, fresh, s', fs, h1, h2, h3, h4, hr, hl, hb, hsz, _⟩ :=
    send_last m ops hfit i hi (.map kt vt) es hst hz hs extra
  refine ⟨s, msg, s1, fresh, s', h1, h2, h3, h4, ?_⟩
  have hp := paddingNeeded_sum (entryBytes kt vt es)
  have hp' : paddingNeeded (entryBytes kt vt es) = (entryBytes kt vt es + 7) / 8 * 8 - entryBytes kt vt es := by omega
  simp only [scalarSize] at hsz
  simp only [scalarBlob, STy.ft, STy.f40, STy.tail] at hb
  rw [getMap_hdr hr kt vt es (by omega) hst.1 (by omega) hb, hn, hp']

/-- **C14 (b)** The round trip fails: `map[bool]bool{true: true}` arrives with four entries whose keys
are not in order, and the one key that was stored is not found. -/
theorem C14_padding_becomes_entries :
    ∃ gm s msg s1 fresh s' r, runMOps KTy.bool.compare [.set true true] (GoMap.new : GoMap Bool Bool) = .ok gm ∧
      run 1 [.set 0 (.map .bool .bool) (gm.keys.zip gm.vals)] = .ok s ∧ s.marshal = .ok (msg, s1) ∧
      St.new 1 = .ok fresh ∧ fresh.unmarshal msg [] = some s' ∧
      getMap .bool .bool s' 0 = .ok (some r) ∧
      r.keys = [true, false, false, false] ∧ r.vals = [true, false, false, false] ∧
      r.get KTy.bool.compare true = .ok none := by
  refine ⟨_, _, _, _, _, _, _, rfl, rfl, rfl, rfl, rfl, rfl, ?_, ?_, ?_⟩ <;> decide +kernel

/-- **C14 (c)** A map built by any calls whose padding is shorter than a shortest entry arrives as the
same map: the receiver's map object shows the mathematical map the sender's calls describe, with the
same keys in the same order. Missing: the condition on the padding, without which it is false
(`C14_padding_becomes_entries`). The size limit is part of the format (`C14_too_large_panics`). -/
theorem C14_round_trip_partial (m : Nat) (ops : List Op) (hfit : Within m ops) (i : Nat) (hi : i < m)
    (kt : KTy) (vt : VTy) (mops : List (MOp kt.Val vt.Val)) (gm : GoMap kt.Val vt.Val)
    (hgm : runMOps kt.compare mops GoMap.new = .ok gm) (hne : gm.keys ≠ [])
    (hc : STy.Clean (.map kt vt) (gm.keys.zip gm.vals))
    (hs : 8 + sizes ((specRun m ops).set i (specScalar (.map kt vt) (gm.keys.zip gm.vals))) < 2 ^ 32)
    (extra : Bytes) :
    ∃ s msg s1 fresh s' r, run m (ops ++ [.set i (.map kt vt) (gm.keys.zip gm.vals)]) = .ok s ∧
      s.marshal = .ok (msg, s1) ∧ St.new m = .ok fresh ∧ fresh.unmarshal msg extra = some s' ∧
      getMap kt vt s' i = .ok (some r) ∧ r.keys = gm.keys ∧ r.vals = gm.vals ∧
      ShowsMap kt r (specMOps kt mops fun _ => none) := by
  obtain ⟨gm', e, hshow⟩ := C13_map_refines kt mops
  rw [hgm] at e
  obtain rfl : gm = gm' := by simpa using e
  have hlen : gm.vals.length = gm.keys.length := hshow.aligned.1
  have hzne : gm.keys.zip gm.vals ≠ [] := by
    intro h
    have := congrArg List.length h
    rw [List.length_zip, hlen] at this
    simp at this
    exact hne this
  have hk : (gm.keys.zip gm.vals).map Prod.fst = gm.keys := List.map_fst_zip (by omega)
  have hv : (gm.keys.zip gm.vals).map Prod.snd = gm.vals := List.map_snd_zip (by omega)
  obtain ⟨s, msg, s1, fresh, s', h1, h2, h3, h4, h5⟩ :=
    C14_exact m ops hfit i hi kt vt _ hzne hc.1 hs extra 0 hc.2.symm
  rw [hk, hv] at h5
  simp only [List.replicate_zero, List.append_nil] at h5
  refine ⟨s, msg, s1, fresh, s', _, h1, h2, h3, h4, h5, rfl, rfl, ?_⟩
  exact ⟨hshow.get, hshow.has, hshow.sorted, hshow.distinct, hshow.aligned, hshow.complete, rfl⟩

/-- A map of strings to numbers. -/
def demoMap : List (MOp Bytes UInt16) := [.set [98, 99] 7, .set [97] 1, .set [98, 99] 8, .set [] 3]

example := C14_round_trip_partial 8 demoOps demo_fits.within 0 (by decide) .str (.num .u16) demoMap
  ⟨[[], [97], [98, 99]], [3, 1, 8], true⟩ (by decide) (by decide)
  ⟨⟨by simp [VTy.Storable], by decide +kernel⟩, by decide⟩ (by decide +kernel) [5]

/-- **C14 (d)** For maps whose shortest entry has 8 bytes or more (strings to strings, 64-bit keys, any
key to structs or Any) the padding is never an entry: what arrives is always the same map. -/
theorem C14_wide_maps (m : Nat) (ops : List Op) (hfit : Within m ops) (i : Nat) (hi : i < m)
    (kt : KTy) (vt : VTy) (hw : ∀ z, vt.minSize = some z → 8 ≤ kt.minSize + z)
    (mops : List (MOp kt.Val vt.Val)) (gm : GoMap kt.Val vt.Val)
    (hgm : runMOps kt.compare mops GoMap.new = .ok gm) (hne : gm.keys ≠ [])
    (hc : STy.Storable (.map kt vt) (gm.keys.zip gm.vals))
    (hs : 8 + sizes ((specRun m ops).set i (specScalar (.map kt vt) (gm.keys.zip gm.vals))) < 2 ^ 32)
    (extra : Bytes) :
    ∃ s msg s1 fresh s' r, run m (ops ++ [.set i (.map kt vt) (gm.keys.zip gm.vals)]) = .ok s ∧
      s.marshal = .ok (msg, s1) ∧ St.new m = .ok fresh ∧ fresh.unmarshal msg extra = some s' ∧
      getMap kt vt s' i = .ok (some r) ∧ r.keys = gm.keys ∧ r.vals = gm.vals ∧
      ShowsMap kt r (specMOps kt mops fun _ => none) := by
  refine C14_round_trip_partial m ops hfit i hi kt vt mops gm hgm hne ⟨hc, ?_⟩ hs extra
  simp only [phantoms]
  cases hz : vt.minSize with
  | none => rfl
  | some z => exact Nat.div_eq_of_lt (by have := hw z hz; omega)

example := C14_wide_maps 8 demoOps demo_fits.within 0 (by decide) .str .bytes (by simp [VTy.minSize, KTy.minSize])
  [.set [98] [1], .set [97] [2, 3]] ⟨[[97], [98]], [[2, 3], [1]], true⟩ (by decide) (by decide)
  ⟨by simp [VTy.Storable], by decide +kernel⟩ (by decide +kernel) []

/-- **C14 (e)** A map whose encoding takes 16 MiB or more cannot be stored: writing it panics. -/
theorem C14_too_large_panics (s : St) (i : Nat) (kt : KTy) (vt : VTy) (es : List (kt.Val × vt.Val))
    (h1 : 2 ^ 24 ≤ scalarSize (.map kt vt) es) (h2 : scalarSize (.map kt vt) es < 2 ^ 32) :
    STy.set (.map kt vt) s i es = .panic := by
  have hp := paddingNeeded_sum (entryBytes kt vt es)
  simp only [scalarSize] at h1 h2
  have hne : es.length ≠ 0 := by
    intro h; rw [List.length_eq_zero_iff] at h; subst h; simp [entryBytes] at h1
  simp only [STy.set, syncMap, mapBlob, mapDataSize_eq, HeaderSize]
  rw [Nat.add_assoc, hp, Nat.mod_eq_of_lt (by omega)]
  have hbig : 8 + (entryBytes kt vt es + 7) / 8 * 8 > MaxMapSize := by simp only [MaxMapSize]; omega
  simp only [encodeMapHeaderAt, if_pos hbig]
  simp [hne]

example (d : Bytes) (hd : d.length = 2 ^ 24) : 2 ^ 24 ≤ scalarSize (.map .bool .bytes) [(true, d)] ∧
    scalarSize (.map .bool .bytes) [(true, d)] < 2 ^ 32 := by
  simp only [scalarSize, entryBytes, KTy.size, VTy.size, List.map_cons, List.map_nil, List.sum_cons, List.sum_nil]
  omega

/-! ### C15 Any -/

/-- The bytes `SetAny` takes from a struct built by a program, and what a struct of the same type
decodes from them. -/
theorem segment_of_program (m : Nat) (ops : List Op) (hfit : Fits m ops) :
    ∃ c, run m ops = .ok c ∧ IsSegment c.seg.data ∧ c.seg.data.length = 8 + sizes (specRun m ops) ∧
      ∀ tys : List Ty, tys.length = m → FieldsHaveTy (specRun m ops) tys → ∀ extra, ∃ fresh t,
        St.new m = .ok fresh ∧ fresh.unmarshal c.seg.data extra = some t ∧
        readFields tys t 0 = .ok (viewFields tys (specRun m ops)) := by
  obtain ⟨s0, h0, hr, hl, he, _⟩ := new_rep m
  obtain ⟨c, h1, h2, h3, h4⟩ := ops_rep ops hr (by simp [hl]) (by simpa using hfit.1)
    (canons_replicate m) (by rw [hl]; exact hfit.2)
  have hsm := h2.small
  have htot := total_encs (specOps ops (List.replicate m .absent)) 0
  have hlen : c.seg.data.length = total (encs (specOps ops (List.replicate m .absent)) 0) := by
    rw [h2.data]; simp [total]
  refine ⟨c, by simp [run, h0, h1], ⟨0, FTStruct, ?_⟩, ?_, ?_⟩
  · rw [hlen, h2.data]
    exact decodeHeader_hdr (by decide) (by decide) (by omega) _
  · rw [hlen, htot]; rfl
  · intro tys htl hty extra
    obtain ⟨s', hu, hr', hl', _⟩ := unmarshal_rep h2.wf h2.small 0 (by omega) s0 m hl
      (by intro i hi _; have e := new_eq m; rw [h0] at e; simp at e; rw [e]; simp [hi]) [] extra
    rw [List.append_nil, ← h2.data] at hu
    refine ⟨s0, s', h0, hu, ?_⟩
    have := read_fields tys hr' h4 (by rw [specOps_length]; simpa using hfit.1) 0
      (by rw [hl']; omega) (by intro j ty hj; rw [Nat.zero_add]; exact hty.get j ty hj)
    rw [this, viewFields_eq_map]; simp [specRun]

/-- **C15 (a)** A struct stored in an Any field, marshalled and unmarshalled: `GetAnyRaw` gives the type
identity and the bytes it was stored with, `GetAny` into a new struct of the same type reads the stored
record, and `GetAny` into any struct of a different type identity is an error that leaves the target as
it was.
Missing: structs with values that are not clean or with list edits not yet written, which are lost (`C15_pending_list_edit_is_lost`), and messages of 4 GiB and more. -/
theorem C15_any_round_trip_partial (m : Nat) (ops : List Op) (hfit : Within m ops) (i : Nat) (hi : i < m)
    (m' : Nat) (ops' : List Op) (hfit' : Fits m' ops') (tys : List Ty) (htl : tys.length = m')
    (hty : FieldsHaveTy (specRun m' ops') tys) (hash : Bytes) (hh : hash.length = 16)
    (hs : sizes ((specRun m ops).set i .absent) + sizes (specRun m' ops') + 40 < 2 ^ 32) (extra extra' : Bytes) :
    ∃ c s msg s1 fresh s' fresh' t, run m' ops' = .ok c ∧
      run m (ops ++ [.set i .any (some ⟨hash, c.seg.data⟩)]) = .ok s ∧ s.marshal = .ok (msg, s1) ∧
      St.new m = .ok fresh ∧ fresh.unmarshal msg extra = some s' ∧
      getAnyRaw s' i = .ok (some ⟨hash, c.seg.data⟩) ∧
      St.new m' = .ok fresh' ∧ getAny s' i hash fresh' extra' = .ok (t, false) ∧
      readFields tys t 0 = .ok (viewFields tys (specRun m' ops')) ∧
      ∀ hash' target, hash' ≠ hash → getAny s' i hash' target extra' = .ok (target, true) := by
  obtain ⟨c, hc, hseg, hlen, hread⟩ := segment_of_program m' ops' hfit'
  obtain ⟨fresh', t, hn, hu, hr⟩ := hread tys htl hty extra'
  have hvl : (specRun m ops).length = m := by simp [specRun, specOps_length]
  have hset : sizes ((specRun m ops).set i (specScalar .any (some ⟨hash, c.seg.data⟩)))
      = sizes ((specRun m ops).set i .absent) + (24 + c.seg.data.length) := by
    have : ∀ (vs : List Val) (i : Nat) (v : Val), i < vs.length →
        sizes (vs.set i v) = sizes (vs.set i .absent) + v.size := by
      intro vs
      induction vs with
      | nil => intro i v h; simp at h
      | cons w vs ih =>
        intro i v h
        cases i with
        | zero => simp only [List.set_cons_zero, sizes, Val.size]; omega
        | succ i => simp only [List.set_cons_succ, sizes, ih i v (by simpa using h)]; omega
    rw [this _ _ _ (by omega)]
    simp [specScalar, STy.isZero, Val.size, scalarSize]
  obtain ⟨s, msg, s1, fresh, s', fs, h1, h2, h3, h4, hrep, hl, hb, hsz, h16⟩ :=
    send_last m ops hfit i hi .any (some ⟨hash, c.seg.data⟩) hh rfl (by omega) extra
  have hraw : getAnyRaw s' i = .ok (some ⟨hash, c.seg.data⟩) :=
    getAnyRaw_hdr hrep _ (by omega) h16 (f40_lt .any (some ⟨hash, c.seg.data⟩) hsz hh) hh hb
  refine ⟨c, s, msg, s1, fresh, s', fresh', t, hc, h1, h2, h3, h4, hraw, hn, ?_, hr, ?_⟩
  · simp only [getAny, hraw, Res.ok_bind, decodeInto, ne_eq, not_true_eq_false, if_false, hu]; rfl
  · intro hash' target hne
    simp only [getAny, hraw, Res.ok_bind, decodeInto, ne_eq, hne, not_false_eq_true, if_true]; rfl

def demoHash : Bytes := [1, 2, 3, 4, 5, 6, 7, 8, 9, 10, 11, 12, 13, 14, 15, 16]

example := C15_any_round_trip_partial 8 demoOps demo_fits.within 3 (by decide) 8 demoOps demo_fits demoTys rfl demo_typed
  demoHash rfl (by decide +kernel) [1] [2, 2]

/-- **C15 (b)** What is stored is the segment as it is: an edit of a list that has not been marshalled is
not in it (`SetAny` does not bring the list objects up to date). -/
theorem C15_pending_list_edit_is_lost :
    (do
      let fresh ← St.new 1
      let inner ← runLOps [.edit 0 (.lnum .u8) (fun v => some (v ++ [7]))] (LSt.ofSt fresh)
      let items ← inner.shows 0 (.lnum .u8)
      let s ← run 1 [.set 0 .any (some ⟨demoHash, inner.st.seg.data⟩)]
      let (msg, _) ← s.marshal
      let s' ← Res.ofOption (fresh.unmarshal msg [])
      let (t, err) ← getAny s' 0 demoHash fresh []
      let items' ← STy.get (.lnum .u8) t 0
      return (items, err, items') : Res (List UInt8 × Bool × List UInt8)) = .ok ([7], false, []) := by
  decide +kernel

/-! ### C16 `[]any` -/

/-- **C16 (a)** Every item of a `[]any` field arrives with the identity and the bytes it was stored with,
in order, there are as many as were stored, reading an item into a new struct of its type gives the
record that was stored, and reading it as any other type is an error that leaves the target as it was.
Missing: raw items that are not structs, for which it is false (`C16_raw_item_without_data`), and messages of 4 GiB and more. -/
theorem C16_list_any_round_trip_partial (m : Nat) (ops : List Op) (hfit : Within m ops) (i : Nat) (hi : i < m)
    (vs : List AnyVal) (hst : ∀ a ∈ vs, a.Storable)
    (hs : 8 + sizes ((specRun m ops).set i (specScalar .lany vs)) < 2 ^ 32) (extra : Bytes) (hne : vs ≠ []) :
    ∃ s msg s1 fresh s', run m (ops ++ [.set i .lany vs]) = .ok s ∧ s.marshal = .ok (msg, s1) ∧
      St.new m = .ok fresh ∧ fresh.unmarshal msg extra = some s' ∧
      getListAnyLen s' i = .ok vs.length ∧ (∀ j, getListAnyRaw s' i j = .ok vs[j]?) ∧
      (∀ (j : Nat) (a : AnyVal) (m' : Nat) (ops' : List Op) (tys : List Ty) (extra' : Bytes),
        vs[j]? = some a → Fits m' ops' → (∃ c, run m' ops' = .ok c ∧ a.data = c.seg.data) →
        tys.length = m' → FieldsHaveTy (specRun m' ops') tys →
        ∃ fresh' t, St.new m' = .ok fresh' ∧ getListAny s' i j a.typeHash fresh' extra' = .ok (t, false) ∧
          readFields tys t 0 = .ok (viewFields tys (specRun m' ops'))) ∧
      (∀ (j : Nat) (hash : Bytes) (target : St) (extra' : Bytes),
        (∀ a, vs[j]? = some a → hash ≠ a.typeHash) →
        getListAny s' i j hash target extra' = .ok (target, true)) := by
  have hz : STy.isZero .lany vs = false := by
    simp only [STy.isZero, beq_eq_false_iff_ne, ne_eq, List.length_eq_zero_iff]; exact hne
  obtain ⟨s, msg, s1, fresh, s', fs, h1, h2, h3, h4, hrep, hl, hb, hsz, h16⟩ :=
    send_last m ops hfit i hi .lany vs hst hz hs extra
  have hf := f40_lt .lany vs hsz hst
  have hraw := fun j => getListAnyRaw_hdr hrep vs (by omega) h16 hf hst hb j
  refine ⟨s, msg, s1, fresh, s', h1, h2, h3, h4, ?_, hraw, ?_, ?_⟩
  · simp only [getListAnyLen, listAnyField_hdr hrep _ (by omega) h16 hf hb, Res.ok_bind]; rfl
  · intro j a m' ops' tys extra' hj hfit' ⟨c, hc, hd⟩ htl hty
    obtain ⟨c', hc', _, _, hread⟩ := segment_of_program m' ops' hfit'
    obtain rfl : c = c' := by rw [hc] at hc'; simpa using hc'
    obtain ⟨fresh', t, hn, hu, hr⟩ := hread tys htl hty extra'
    rw [← hd] at hu
    refine ⟨fresh', t, hn, ?_, hr⟩
    simp only [getListAny, hraw, hj, Res.ok_bind, decodeInto, ne_eq, not_true_eq_false, if_false, hu]; rfl
  · intro j hash target extra' hne
    simp only [getListAny, hraw, Res.ok_bind, decodeInto]
    cases hj : vs[j]? with
    | none => rfl
    | some a => simp only [ne_eq, hne a hj, not_false_eq_true, if_true]; rfl

/-- Two structs: an empty one and one with a field. -/
def demoAnys : List AnyVal :=
  [⟨demoHash, hdr 0 FTStruct 8⟩, ⟨demoHash.reverse, hdr 0 FTStruct 16 ++ hdr 0 FTUint8 5⟩]

theorem demo_anys : ∀ a ∈ demoAnys, a.Storable := by
  intro a ha
  simp only [demoAnys, List.mem_cons, List.not_mem_nil, or_false] at ha
  rcases ha with rfl | rfl
  · exact ⟨rfl, 0, FTStruct, by decide⟩
  · exact ⟨rfl, 0, FTStruct, by decide⟩

example := C16_list_any_round_trip_partial 8 demoOps demo_fits.within 3 (by decide) demoAnys demo_anys
  (by decide +kernel) [] (by decide)

/-- **C16 (b)** The items must be structs: `SetListAnyRaw` takes any bytes without an error, and an item
without data makes the receiver panic when it reads the field. -/
theorem C16_raw_item_without_data :
    (do
      let fresh ← St.new 1
      let (s, err) ← setListAnyRaw fresh 0 [⟨demoHash, []⟩, ⟨demoHash, hdr 0 FTStruct 8⟩]
      let (msg, _) ← s.marshal
      return (err, (fresh.unmarshal msg []).map fun s' => getListAnyLen s' 0) :
        Res (Bool × Option (Res Nat))) = .ok (false, some .panic) := by
  decide +kernel

/-! ### C03–C07 on structs with these fields -/

/-- An Any, a `[]any`, and a map, overwritten. -/
def demoAnyOps : List Op :=
  [.set 0 .any (some ⟨demoHash, hdr 0 FTStruct 8⟩), .set 1 .lany demoAnys,
   .set 2 (.map .str (.num .u16)) [([97], 1)], .set 2 (.map .str (.num .u16)) [([], 3), ([97], 1), ([98, 99], 8)],
   .set 0 .any none, .set 0 .any (some ⟨demoHash.reverse, hdr 0 FTStruct 8⟩)]

def demoAnyTys : List Ty := [.scalar .any, .scalar .lany, .scalar (.map .str (.num .u16))]

theorem demo_any_spec : specRun 3 demoAnyOps = [.scalar .any (some ⟨demoHash.reverse, hdr 0 FTStruct 8⟩),
    .scalar .lany demoAnys, .scalar (.map .str (.num .u16)) [([], 3), ([97], 1), ([98, 99], 8)]] := rfl

theorem demo_any_fits : Fits 3 demoAnyOps := by
  refine ⟨by decide, ?_⟩
  have h := demo_anys
  simp only [demoAnyOps, FitsFrom, Op.Fits]
  refine ⟨⟨by decide, rfl⟩, by decide +kernel, ⟨by decide, h⟩, by decide +kernel,
    ⟨by decide, ⟨by simp [VTy.Storable], by decide +kernel⟩, by decide⟩, by decide +kernel,
    ⟨by decide, ⟨by simp [VTy.Storable], by decide +kernel⟩, by decide⟩, by decide +kernel,
    ⟨by decide, trivial⟩, by decide +kernel, ⟨by decide, rfl⟩, by decide +kernel, trivial⟩

theorem demo_any_typed : FieldsHaveTy (specRun 3 demoAnyOps) demoAnyTys := by
  rw [demo_any_spec]; simp [FieldsHaveTy, demoAnyTys, Val.HasTy]

example := C03_struct_is_record_partial 3 demoAnyOps demoAnyTys demo_any_fits.within demo_any_fits.tidy rfl demo_any_typed
example := C04_marshal_unmarshal_partial 3 demoAnyOps demoAnyTys [1, 2, 3] demo_any_fits.within demo_any_fits.tidy rfl demo_any_typed
example := C06_size 3 demoAnyOps demo_any_fits.within
example := C07_schema_evolution_partial 3 demoAnyOps (demoAnyTys.take 2) [] [] demo_any_fits.within demo_any_fits.tidy
  (by rw [demo_any_spec]; simp [FieldsHaveTy, demoAnyTys, Val.HasTy])

/-- C16: a raw `Any` whose hash is not 16 bytes long is refused and the struct is left as it was. -/
theorem C16_raw_refused (s : St) (fn : Nat) (a : AnyVal) (hd : a.data ≠ []) (hh : a.typeHash.length ≠ 16) :
    setAnyRaw s fn a = .ok (s, true) := by
  have h1 : a.data.length ≠ 0 := by simpa using hd
  simp [setAnyRaw, h1, AnyHashSize, hh]

/-- C16: one such item is enough for a list of raw `Any` to be refused. -/
theorem C16_raw_list_refused (s : St) (fn : Nat) (as : List AnyVal) (a : AnyVal) (ha : a ∈ as)
    (hh : a.typeHash.length ≠ 16) : setListAnyRaw s fn as = .ok (s, true) := by
  have h1 : as.length ≠ 0 := by cases as <;> simp at ha ⊢
  have h2 : as.any (fun a => a.typeHash.length != AnyHashSize) = true :=
    List.any_eq_true.2 ⟨a, ha, by simpa [AnyHashSize] using hh⟩
  simp only [setListAnyRaw]
  rw [if_pos ⟨h1, h2⟩]
  rfl

/-- C16: otherwise a raw `Any` is stored exactly like a typed one; without data it clears the field. -/
theorem C16_raw_accepted (s : St) (fn : Nat) (a : AnyVal) (hh : a.data = [] ∨ a.typeHash.length = 16) :
    setAnyRaw s fn a = (setAny s fn (if a.data = [] then none else some a)).map fun s => (s, false) := by
  by_cases hd : a.data = []
  · simp only [setAnyRaw, hd, List.length_nil, if_true]
    cases setAny s fn none <;> rfl
  · have h1 : a.data.length ≠ 0 := by simpa using hd
    have h2 := hh.resolve_left hd
    simp only [setAnyRaw, h1, hd, if_false, AnyHashSize, h2, ne_eq, not_true_eq_false]
    cases setAny s fn (some a) <;> rfl

example : (∃ a : AnyVal, a.data ≠ [] ∧ a.typeHash.length ≠ 16) ∧ ∃ a : AnyVal, a.data ≠ [] ∧ a.typeHash.length = 16 :=
  ⟨⟨⟨[1], [1]⟩, by simp⟩, ⟨⟨demoHash, [1]⟩, by simp [demoHash]⟩⟩

end Claw
