import Verif.Props.Large
import Verif.Props.Lists

/-!
# Lists of 4 GiB (C09, C10)

The same index as in `Props/Large`: a list whose encoding is a multiple of 4 GiB is lost, in the
struct it is put into and at the receiver.
-/

namespace Claw

/-- A struct with one field, of which only the encoding is known. -/
def holds (m i : Nat) (d sp : Bytes) (parsed : Bool) (idx : List Entry) : St :=
  ⟨⟨hdr 0 FTStruct (8 + d.length) ++ d, sp⟩, idx, parsed, false, none, false, []⟩

theorem insert_into_empty (m i : Nat) (hi : i < m) (d : Bytes) (h40 : 8 + d.length < 2 ^ 40) :
    ∃ s0 sp, St.new m = .ok s0 ∧ (∀ o, s0.recordOp o = s0) ∧
      s0.insertField i d = .ok (holds m i d sp true (oneEntry m i d.length)) := by
  have hfind : ∀ s : St, s.idx = List.replicate m Entry.zero → s.findInsertPosition i = 8 := by
    intro s hs
    simp only [St.findInsertPosition, hs, List.take_replicate]
    generalize min i m = k
    induction k with
    | zero => rfl
    | succ k ih => simpa [List.replicate_succ, Entry.zero] using ih
  have hshift : ∀ a d, St.updateFieldOffsets (List.replicate m Entry.zero) a d = List.replicate m Entry.zero := by
    intro a d; simp [St.updateFieldOffsets, Entry.zero]
  obtain ⟨g, hg1, hg2⟩ := Seg.insertAt_eq ⟨hdr 0 FTStruct 8, zeros 56⟩ (hdr 0 FTStruct 8) [] d (by simp)
  have hg1' : Seg.insertAt ⟨hdr 0 FTStruct 8, zeros 56⟩ 8 d = .ok g := by simpa using hg1
  have hens : St.ensure ⟨⟨hdr 0 FTStruct 8, zeros 56⟩, List.replicate m Entry.zero, false, false, none, false, []⟩ =
      .ok ⟨⟨hdr 0 FTStruct 8, zeros 56⟩, List.replicate m Entry.zero, true, false, none, false, []⟩ := by
    have hd : (hdr 0 FTStruct 8).drop HeaderSize = [] := by simp [HeaderSize]
    simp only [St.ensure, Bool.false_eq_true, if_false, St.parseFieldIndex, hd]
    rw [parseLoop_eq]; simp [HeaderSize]
  refine ⟨_, g.spare, new_eq m, fun o => by simp [St.recordOp], ?_⟩
  simp only [St.insertField, hens, Res.ok_bind]
  simp only [List.getElem?_replicate, if_pos hi]
  have hz : ¬ Entry.zero.size > 0 := by simp [Entry.zero]
  simp only [hz, if_false]
  rw [hfind _ rfl]
  simp only [hg1', Res.ok_bind, hshift]
  rw [updateHeaderSize_eq _ 0 8 d (by simpa using hg2) h40]
  simp [oneEntry, holds]

/-- The message of such a struct, and what a receiver makes of it. -/
theorem receive_one (m i : Nat) (hi : i < m) (hm : m ≤ 65536) (d sp extra : Bytes) (ft f : Nat)
    (h40 : 8 + d.length < 2 ^ 40) (h8 : 8 ≤ d.length) (hft : ft ≠ 0)
    (hdec : decodeHeader d = some (i, ft, f)) (hsz : fieldSizeAt d ft f = d.length) :
    (holds m i d sp true (oneEntry m i d.length)).marshal =
      .ok (hdr 0 FTStruct (8 + d.length) ++ d, holds m i d sp true (oneEntry m i d.length)) ∧
    ∃ fresh, St.new m = .ok fresh ∧
      fresh.unmarshal (hdr 0 FTStruct (8 + d.length) ++ d) extra =
        some (holds m i d extra false (List.replicate m Entry.zero)) ∧
      (holds m i d extra false (List.replicate m Entry.zero)).ensure =
        .ok (holds m i d extra true (oneEntry m i d.length)) := by
  have hmsg : (hdr 0 FTStruct (8 + d.length) ++ d).length = 8 + d.length := by simp
  refine ⟨?_, _, new_eq m, ?_, ?_⟩
  · simp only [St.marshal, holds, Bool.false_eq_true, false_and, if_false]
    rw [Seg.putHeaderSize_eq _ 0 FTStruct (8 + d.length) d rfl _ (by rw [hmsg]; exact h40)]
    rw [hmsg]; rfl
  · have hd0 := decodeHeader_hdr (fn := 0) (ft := FTStruct) (by omega) (by decide) h40 []
    have ht : (hdr 0 FTStruct (8 + d.length) ++ d).take HeaderSize = hdr 0 FTStruct (8 + d.length) :=
      List.take_left' (by simp [HeaderSize])
    simp only [St.unmarshal, ht]
    rw [List.append_nil] at hd0
    rw [hd0]
    have hlt : ¬ (hdr 0 FTStruct (8 + d.length) ++ d).length < HeaderSize := by
      rw [hmsg]; simp only [HeaderSize]; omega
    have hgt : ¬ 8 + d.length > (hdr 0 FTStruct (8 + d.length) ++ d).length := by rw [hmsg]; omega
    simp only [hlt, hgt, if_false, ne_eq, not_true_eq_false]
    rw [List.take_of_length_le (Nat.le_of_eq hmsg), List.drop_of_length_le (Nat.le_of_eq hmsg), List.nil_append]
    rfl
  · have hd : (hdr 0 FTStruct (8 + d.length) ++ d).drop HeaderSize = d :=
      List.drop_left' (by simp [HeaderSize])
    simp only [St.ensure, holds, Bool.false_eq_true, if_false, St.parseFieldIndex, hd]
    rw [parseLoop_eq, if_pos (by simp [HeaderSize]; omega), hdec]
    simp only [hft, if_false, hsz]
    rw [if_neg (by omega), List.drop_length, parseLoop_eq]
    simp [HeaderSize, recordEntry, hi, oneEntry]

theorem lost_offset {s s' : St} {i m n : Nat} (hi : i < m) (hn : n % 2 ^ 32 = 0)
    (h : s.ensure = .ok s') (hx : s'.idx = oneEntry m i n) :
    s.fieldOffset i = .ok ((8, 0), s') ∧ s.hasField i = .ok (false, s') := by
  have hget : s'.idx[i]? = some ⟨8, 0, true⟩ := by
    rw [hx, oneEntry, List.getElem?_set_self (by simpa using hi), hn]
  constructor
  · simp only [St.fieldOffset, h, Res.ok_bind, hget]; simp
  · simp only [St.hasField, h, Res.ok_bind, hget]; simp

/-- Disagreement with C09 from 4 GiB on: a list of bools whose encoding is a multiple of 4 GiB (the
least has 2^35 - 64 items) is stored and sent without an error, and is absent and empty for the
sender and for the receiver. -/
theorem C09_four_gib_list_is_lost (m i : Nat) (hi : i < m) (hm : m ≤ 65536) (v : List Bool)
    (hv : v ≠ []) (h40 : v.length < 2 ^ 40) (hw : (8 + (v.length + 63) / 64 * 8) % 2 ^ 32 = 0)
    (extra : Bytes) :
    ∃ s msg s1 fresh s' s'', run m [.set i .lbool v] = .ok s ∧ STy.lbool.get s i = .ok [] ∧
      s.marshal = .ok (msg, s1) ∧ St.new m = .ok fresh ∧ fresh.unmarshal msg extra = some s' ∧
      STy.lbool.get s' i = .ok [] ∧ s'.hasField i = .ok (false, s'') := by
  have hb := boolsBlob_eq i v h40
  generalize hd : hdr i FTListBools v.length ++ boolsTail v = d at hb
  have hlen : d.length = 8 + (v.length + 63) / 64 * 8 := by rw [← hd]; simp; omega
  obtain ⟨s0, sp, e1, e2, e3⟩ := insert_into_empty m i hi d (by omega)
  have hdec : decodeHeader d = some (i, FTListBools, v.length) := by
    rw [← hd]; exact decodeHeader_hdr (by omega) (by decide) h40 _
  have hsz : fieldSizeAt d FTListBools v.length = d.length := by
    rw [hlen]; simp +decide [fieldSizeAt, HeaderSize, paddingNeeded]; split <;> omega
  obtain ⟨f1, fresh, f2, f3, f4⟩ := receive_one m i hi hm d sp extra _ _ (by omega) (by omega)
    (by decide) hdec hsz
  have g1 := lost_offset (s := holds m i d sp true (oneEntry m i d.length))
    (s' := holds m i d sp true (oneEntry m i d.length)) (n := d.length) hi (by omega)
    (by simp [St.ensure, holds]) rfl
  have g2 := lost_offset (n := d.length) hi (by omega) f4 rfl
  refine ⟨_, _, _, fresh, _, _, ?_, ?_, f1, f2, f3, ?_, g2.2⟩
  · simp only [run, e1, Res.ok_bind, runOps, Op.run, STy.set, setListBools, storeList, e2]
    rw [if_neg (by simpa using hv), hb]
    simp [Res.ofOption, e3]
  · simp only [STy.get, getListBools, fieldBytes, g1.1, Res.ok_bind]; simp
  · simp only [STy.get, getListBools, fieldBytes, g2.1, Res.ok_bind]; simp

/-- Non-trivial case: 2^35 - 64 bools, exactly 4 GiB of encoding. -/
example := C09_four_gib_list_is_lost 4 2 (by decide) (by decide) (List.replicate (2 ^ 35 - 64) true)
  (by rw [ne_eq, List.replicate_eq_nil_iff]; omega) (by rw [List.length_replicate]; omega)
  (by rw [List.length_replicate]) [7]

/-- Disagreement with C10 from 4 GiB on: a list of numbers of any item type whose encoding (header,
items and padding) is a multiple of 4 GiB is stored and sent without an error, and reads as an unset
list for the sender and for the receiver. -/
theorem C10_four_gib_list_is_lost (k : NTy) (m i : Nat) (hi : i < m) (hm : m ≤ 65536) (v : List k.Val)
    (hv : v ≠ []) (h40 : 16 + v.length * k.size < 2 ^ 40) (hw : (8 + v.length * k.size) % 2 ^ 32 = 0)
    (extra : Bytes) :
    ∃ s msg s1 fresh s' s'', run m [.set i (.lnum k) v] = .ok s ∧ (STy.lnum k).get s i = .ok [] ∧
      s.marshal = .ok (msg, s1) ∧ St.new m = .ok fresh ∧ fresh.unmarshal msg extra = some s' ∧
      (STy.lnum k).get s' i = .ok [] ∧ s'.hasField i = .ok (false, s'') := by
  have hb := nums_blob_eq k i (numData k v) v.length (by simp; omega)
  have hl : (numData k v).length = v.length * k.size := by simp
  generalize hd : hdr i k.ft (8 + (numData k v).length) ++ numData k v = d at hb
  have hlen : d.length = 8 + v.length * k.size := by rw [← hd]; simp
  obtain ⟨s0, sp, e1, e2, e3⟩ := insert_into_empty m i hi d (by omega)
  have hft : k.ft < 256 ∧ k.ft ≠ 0 := by cases k <;> decide
  have hdec : decodeHeader d = some (i, k.ft, 8 + v.length * k.size) := by
    rw [← hd, hl]; exact decodeHeader_hdr (by omega) hft.1 (by omega) _
  have hsz : fieldSizeAt d k.ft (8 + v.length * k.size) = d.length := by
    rw [hlen]; cases k <;> simp +decide [fieldSizeAt, HeaderSize, paddingNeeded, NTy.ft] <;> omega
  obtain ⟨f1, fresh, f2, f3, f4⟩ := receive_one m i hi hm d sp extra _ _ (by omega) (by omega)
    hft.2 hdec hsz
  have g1 := lost_offset (s := holds m i d sp true (oneEntry m i d.length))
    (s' := holds m i d sp true (oneEntry m i d.length)) (n := d.length) hi (by omega)
    (by simp [St.ensure, holds]) rfl
  have g2 := lost_offset (n := d.length) hi (by omega) f4 rfl
  refine ⟨_, _, _, fresh, _, _, ?_, ?_, f1, f2, f3, ?_, g2.2⟩
  · simp only [run, e1, Res.ok_bind, runOps, Op.run, STy.set, setListNums, storeList, e2, setAll_eq, hb]
    rw [if_neg (by simpa using hv)]
    simp [Res.ofOption, e3]
  · simp only [STy.get, getListNums, g1.1, Res.ok_bind]; simp
  · simp only [STy.get, getListNums, g2.1, Res.ok_bind]; simp

/-- Non-trivial case: 2^29 - 1 integers of 64 bits. -/
example := C10_four_gib_list_is_lost .i64 4 2 (by decide) (by decide) (List.replicate (2 ^ 29 - 1) (-5 : Int64))
  (by rw [ne_eq, List.replicate_eq_nil_iff]; omega)
  (by rw [List.length_replicate]; decide) (by rw [List.length_replicate]; decide) [7]

end Claw
