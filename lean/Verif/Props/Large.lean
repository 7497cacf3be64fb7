import Verif.Lemmas.Wire

/-!
# Fields of 4 GiB (C03, C04, C05)

docs/encoding/encoding.md:120 gives 1 TiB as the largest message and the header has 40 bits for the size, but the
index of a struct keeps offset and size of a field in `uint32` (struct.go:13-17).
-/

namespace Claw

/-- The index of an empty struct in which field `i` got `size` bytes at offset 8. -/
def oneEntry (m i size : Nat) : List Entry := (List.replicate m Entry.zero).set i ⟨8, size % 2 ^ 32, true⟩

/-- A bytes field as it is on the wire. -/
def bytesField (i : Nat) (v : Bytes) : Bytes := hdr i FTBytes v.length ++ (v ++ zeros (paddingNeeded v.length))

theorem bytesField_length (i : Nat) (v : Bytes) : (bytesField i v).length = 8 + v.length + paddingNeeded v.length := by
  simp [bytesField, zeros]; omega

theorem set_into_empty (m i : Nat) (hi : i < m) (v : Bytes) (hv : v ≠ []) (h40 : 8 + (bytesField i v).length < 2 ^ 40) :
    ∃ sp, run m [.set i .bytes v] = .ok ⟨⟨hdr 0 FTStruct (8 + (bytesField i v).length) ++ bytesField i v, sp⟩,
      oneEntry m i (bytesField i v).length, true, false, none, false, []⟩ := by
  have hne : (v.length == 0) = false := by simpa using hv
  have hfind : ∀ s : St, s.idx = List.replicate m Entry.zero → s.findInsertPosition i = 8 := by
    intro s hs
    simp only [St.findInsertPosition, hs, List.take_replicate]
    generalize min i m = k
    induction k with
    | zero => rfl
    | succ k ih => simpa [List.replicate_succ, Entry.zero] using ih
  have hshift : ∀ a d, St.updateFieldOffsets (List.replicate m Entry.zero) a d = List.replicate m Entry.zero := by
    intro a d; simp [St.updateFieldOffsets, Entry.zero]
  have hv40 : v.length < 2 ^ 40 := by rw [bytesField_length] at h40; omega
  obtain ⟨g, hg1, hg2⟩ := Seg.insertAt_eq ⟨hdr 0 FTStruct 8, zeros 56⟩ (hdr 0 FTStruct 8) [] (bytesField i v) (by simp)
  have hg1' : Seg.insertAt ⟨hdr 0 FTStruct 8, zeros 56⟩ 8 (bytesField i v) = .ok g := by simpa using hg1
  have hens : St.ensure ⟨⟨hdr 0 FTStruct 8, zeros 56⟩, List.replicate m Entry.zero, false, false, none, false, []⟩ =
      .ok ⟨⟨hdr 0 FTStruct 8, zeros 56⟩, List.replicate m Entry.zero, true, false, none, false, []⟩ := by
    have hd : (hdr 0 FTStruct 8).drop HeaderSize = [] := by simp [HeaderSize]
    simp only [St.ensure, Bool.false_eq_true, if_false, St.parseFieldIndex, hd]
    rw [parseLoop_eq]; simp [HeaderSize]
  refine ⟨g.spare, ?_⟩
  simp only [run, new_eq, Res.ok_bind, runOps, Op.run, STy.set, setBytes, setOrClear, hne, Bool.false_eq_true, if_false,
    bytesBlob_eq i FTBytes v hv40, Res.ofOption]
  change (St.insertField _ i (bytesField i v) >>= _) >>= _ = _
  simp only [St.insertField, hens, Res.ok_bind]
  simp only [List.getElem?_replicate, if_pos hi]
  have hz : ¬ Entry.zero.size > 0 := by simp [Entry.zero]
  simp only [hz, if_false]
  rw [hfind _ rfl]
  simp only [hg1', Res.ok_bind, hshift]
  rw [updateHeaderSize_eq _ 0 8 (bytesField i v) (by simpa using hg2) h40]
  simp [St.markFieldSet, St.recordOp, oneEntry]

theorem lost_entry {s s' : St} {i m : Nat} (hi : i < m) (n : Nat) (hn : n % 2 ^ 32 = 0) (h : s.ensure = .ok s') (hx : s'.idx = oneEntry m i n) :
    STy.bytes.get s i = .ok [] ∧ s.hasField i = .ok (false, s') := by
  have hget : s'.idx[i]? = some ⟨8, 0, true⟩ := by
    rw [hx, oneEntry, List.getElem?_set_self (by simpa using hi), hn]
  constructor
  · simp only [STy.get, getBytes, St.fieldOffset, h, Res.ok_bind, hget]; simp
  · simp only [St.hasField, h, Res.ok_bind, hget]; simp

/-- **C03 (4 GiB)** C03 is false for large values: a bytes field whose encoding (header, data and padding) is a multiple of 4 GiB
is stored, no error is reported, and then the field is absent and reads as empty. -/
theorem C03_four_gib_field_is_lost (m i : Nat) (hi : i < m) (v : Bytes) (hv : v ≠ [])
    (h40 : 16 + v.length + paddingNeeded v.length < 2 ^ 40) (hw : (8 + v.length + paddingNeeded v.length) % 2 ^ 32 = 0) :
    ∃ s, run m [.set i .bytes v] = .ok s ∧ STy.bytes.get s i = .ok [] ∧ s.hasField i = .ok (false, s) := by
  have hlen := bytesField_length i v
  obtain ⟨sp, h⟩ := set_into_empty m i hi v hv (by omega)
  refine ⟨_, h, lost_entry hi (bytesField i v).length (by omega) (by simp [St.ensure]) rfl⟩

/-- **C04 (4 GiB)** C04 is false for large values: the message holds all bytes of the field, `Unmarshal` reports no error, and the
receiver finds the field absent and empty. -/
theorem C04_four_gib_field_is_lost (m i : Nat) (hi : i < m) (hm : m ≤ 65536) (v : Bytes) (hv : v ≠ [])
    (h40 : 16 + v.length + paddingNeeded v.length < 2 ^ 40) (hw : (8 + v.length + paddingNeeded v.length) % 2 ^ 32 = 0)
    (extra : Bytes) :
    ∃ s msg s1 fresh s' s'', run m [.set i .bytes v] = .ok s ∧ s.marshal = .ok (msg, s1) ∧
      msg.drop 16 = v ++ zeros (paddingNeeded v.length) ∧ St.new m = .ok fresh ∧ fresh.unmarshal msg extra = some s' ∧
      STy.bytes.get s' i = .ok [] ∧ s'.hasField i = .ok (false, s'') := by
  have hlen := bytesField_length i v
  have h40' : 8 + (bytesField i v).length < 2 ^ 40 := by omega
  obtain ⟨sp, h⟩ := set_into_empty m i hi v hv h40'
  have hdec := decodeHeader_hdr (fn := 0) (ft := FTStruct) (by omega) (by decide) h40' []
  have hmsg : (hdr 0 FTStruct (8 + (bytesField i v).length) ++ bytesField i v).length = 8 + (bytesField i v).length := by simp
  have hmar : St.marshal ⟨⟨hdr 0 FTStruct (8 + (bytesField i v).length) ++ bytesField i v, sp⟩,
      oneEntry m i (bytesField i v).length, true, false, none, false, []⟩ = .ok (hdr 0 FTStruct (8 + (bytesField i v).length) ++ bytesField i v,
      ⟨⟨hdr 0 FTStruct (8 + (bytesField i v).length) ++ bytesField i v, sp⟩, oneEntry m i (bytesField i v).length, true, false, none, false, []⟩) := by
    simp only [St.marshal, Bool.false_eq_true, false_and, if_false]
    rw [Seg.putHeaderSize_eq _ 0 FTStruct (8 + (bytesField i v).length) (bytesField i v) rfl _ (by rw [hmsg]; exact h40')]
    rw [hmsg]; rfl
  refine ⟨_, hdr 0 FTStruct (8 + (bytesField i v).length) ++ bytesField i v, _, _,
    ⟨⟨hdr 0 FTStruct (8 + (bytesField i v).length) ++ bytesField i v, extra⟩, List.replicate m Entry.zero, false, false, none, false, []⟩,
    ⟨⟨hdr 0 FTStruct (8 + (bytesField i v).length) ++ bytesField i v, extra⟩, oneEntry m i (bytesField i v).length, true, false, none, false, []⟩,
    h, hmar, ?_, new_eq m, ?_, ?_⟩
  · simp only [bytesField, ← List.append_assoc]
    rw [List.append_assoc (_ ++ _), List.drop_left' (by simp)]
  · have ht : (hdr 0 FTStruct (8 + (bytesField i v).length) ++ bytesField i v).take HeaderSize = hdr 0 FTStruct (8 + (bytesField i v).length) :=
      List.take_left' (by simp [HeaderSize])
    simp only [St.unmarshal, ht]
    rw [List.append_nil] at hdec
    rw [hdec]
    have hlt : ¬ (hdr 0 FTStruct (8 + (bytesField i v).length) ++ bytesField i v).length < HeaderSize := by
      rw [hmsg]; simp only [HeaderSize]; omega
    have hgt : ¬ 8 + (bytesField i v).length > (hdr 0 FTStruct (8 + (bytesField i v).length) ++ bytesField i v).length := by
      rw [hmsg]; omega
    simp only [hlt, hgt, if_false, ne_eq, not_true_eq_false]
    rw [List.take_of_length_le (Nat.le_of_eq hmsg), List.drop_of_length_le (Nat.le_of_eq hmsg), List.nil_append]
  · refine lost_entry hi (bytesField i v).length (by omega) ?_ rfl
    have hd : (hdr 0 FTStruct (8 + (bytesField i v).length) ++ bytesField i v).drop HeaderSize = bytesField i v :=
      List.drop_left' (by simp [HeaderSize])
    simp only [St.ensure, Bool.false_eq_true, if_false, St.parseFieldIndex, hd]
    have hdec' : decodeHeader (bytesField i v) = some (i, FTBytes, v.length) :=
      decodeHeader_hdr (by omega) (by decide) (by omega) _
    have hsz : fieldSizeAt (bytesField i v) FTBytes v.length = (bytesField i v).length := by
      rw [hlen]; simp +decide [fieldSizeAt, HeaderSize]
    rw [parseLoop_eq, if_pos (by simp [HeaderSize, hlen]; omega), hdec']
    simp only [show FTBytes ≠ 0 by decide, if_false, hsz]
    rw [if_neg (by omega), List.drop_length, parseLoop_eq]
    simp [HeaderSize, recordEntry, hi, oneEntry]

/-- **C05 (4 GiB)** C05 is false for large values: a struct into which such a value was set and a new struct look the same, no field of
either is set, but their messages differ. The value takes its bytes although its field is absent. -/
theorem C05_four_gib_not_canonical (m i : Nat) (hi : i < m) (v : Bytes) (hv : v ≠ [])
    (h40 : 16 + v.length + paddingNeeded v.length < 2 ^ 40) (hw : (8 + v.length + paddingNeeded v.length) % 2 ^ 32 = 0) :
    ∃ s msg s1 t t' msg' t1, run m [.set i .bytes v] = .ok s ∧ run m [] = .ok t ∧
      (∀ j, j < m → s.hasField j = .ok (false, s) ∧ t.hasField j = .ok (false, t')) ∧
      s.marshal = .ok (msg, s1) ∧ t.marshal = .ok (msg', t1) ∧
      msg.length = 16 + v.length + paddingNeeded v.length ∧ msg'.length = 8 := by
  have hlen := bytesField_length i v
  have h40' : 8 + (bytesField i v).length < 2 ^ 40 := by omega
  obtain ⟨sp, h⟩ := set_into_empty m i hi v hv h40'
  have hmsg : (hdr 0 FTStruct (8 + (bytesField i v).length) ++ bytesField i v).length = 8 + (bytesField i v).length := by simp
  have hmar : St.marshal ⟨⟨hdr 0 FTStruct (8 + (bytesField i v).length) ++ bytesField i v, sp⟩,
      oneEntry m i (bytesField i v).length, true, false, none, false, []⟩ = .ok (hdr 0 FTStruct (8 + (bytesField i v).length) ++ bytesField i v,
      ⟨⟨hdr 0 FTStruct (8 + (bytesField i v).length) ++ bytesField i v, sp⟩, oneEntry m i (bytesField i v).length, true, false, none, false, []⟩) := by
    simp only [St.marshal, Bool.false_eq_true, false_and, if_false]
    rw [Seg.putHeaderSize_eq _ 0 FTStruct (8 + (bytesField i v).length) (bytesField i v) rfl _ (by rw [hmsg]; exact h40')]
    rw [hmsg]; rfl
  have hens : St.ensure ⟨⟨hdr 0 FTStruct 8, zeros 56⟩, List.replicate m Entry.zero, false, false, none, false, []⟩ =
      .ok ⟨⟨hdr 0 FTStruct 8, zeros 56⟩, List.replicate m Entry.zero, true, false, none, false, []⟩ := by
    have hd : (hdr 0 FTStruct 8).drop HeaderSize = [] := by simp [HeaderSize]
    simp only [St.ensure, Bool.false_eq_true, if_false, St.parseFieldIndex, hd]
    rw [parseLoop_eq]; simp [HeaderSize]
  have hmar' : St.marshal ⟨⟨hdr 0 FTStruct 8, zeros 56⟩, List.replicate m Entry.zero, false, false, none, false, []⟩ = .ok (hdr 0 FTStruct 8,
      ⟨⟨hdr 0 FTStruct 8, zeros 56⟩, List.replicate m Entry.zero, false, false, none, false, []⟩) := by
    simp only [St.marshal, Bool.false_eq_true, false_and, if_false]
    have := Seg.putHeaderSize_eq ⟨hdr 0 FTStruct 8, zeros 56⟩ 0 FTStruct 8 [] (by simp) 8 (by decide)
    simp only [List.append_nil] at this
    rw [show (hdr 0 FTStruct 8).length = 8 by simp, this]
    rfl
  refine ⟨_, _, _, _, ⟨⟨hdr 0 FTStruct 8, zeros 56⟩, List.replicate m Entry.zero, true, false, none, false, []⟩, _, _, h,
    by simp only [run, new_eq, Res.ok_bind, runOps], ?_, hmar, hmar', by rw [hmsg]; omega, by simp⟩
  intro j hj
  constructor
  · have : ∃ e, (oneEntry m i (bytesField i v).length)[j]? = some e ∧ e.size = 0 := by
      by_cases hij : i = j
      · subst hij
        refine ⟨_, by rw [oneEntry, List.getElem?_set_self (by simpa using hi)], ?_⟩
        simp only; omega
      · refine ⟨Entry.zero, by rw [oneEntry, List.getElem?_set_ne hij]; simp [hj], rfl⟩
    obtain ⟨e, he, hs⟩ := this
    have hok : ∀ s : St, s.parsed = true → s.idx[j]? = some e → s.hasField j = .ok (false, s) := by
      intro s h1 h2
      have he' : s.ensure = .ok s := by simp [St.ensure, h1]
      simp only [St.hasField, he', Res.ok_bind, h2, hs]
      rfl
    exact hok _ rfl he
  · simp only [St.hasField, hens, Res.ok_bind, List.getElem?_replicate, hj, if_true]
    simp [Entry.zero]

/-- The least such values have 4 GiB less 8 bytes, whatever the bytes are. -/
example (m i : Nat) (hi : i < m) (v : Bytes) (hv : v.length = 2 ^ 32 - 8) := C03_four_gib_field_is_lost m i hi v
  (by intro h; rw [h] at hv; simp at hv) (by rw [hv]; decide) (by rw [hv]; decide)
example (m i : Nat) (hi : i < m) (hm : m ≤ 65536) (v : Bytes) (hv : v.length = 2 ^ 32 - 8) := C04_four_gib_field_is_lost m i hi hm v
  (by intro h; rw [h] at hv; simp at hv) (by rw [hv]; decide) (by rw [hv]; decide) []
example (n : Nat) (c : UInt8) : ∃ v : Bytes, v.length = n := ⟨List.replicate n c, List.length_replicate⟩

example (m i : Nat) (hi : i < m) (v : Bytes) (hv : v.length = 2 ^ 32 - 8) := C05_four_gib_not_canonical m i hi v
  (by intro h; rw [h] at hv; simp at hv) (by rw [hv]; decide) (by rw [hv]; decide)

end Claw
