import Verif.Spec.Wire
import Verif.Lemmas.Parse
import Verif.Lemmas.Segment
import Verif.Lemmas.Lists
import Verif.Model.Api

/-!
# Parsing arbitrary bytes
-/

namespace Claw

theorem and_mask24' (f : Nat) : (f >>> 16) &&& 0xFFFFFF = f / 2 ^ 16 % 2 ^ 24 := by
  rw [Nat.shiftRight_eq_div_pow]
  exact Nat.and_two_pow_sub_one_eq_mod _ 24

theorem and_mask32' (f : Nat) : (f >>> 8) &&& 0xFFFFFFFF = f / 2 ^ 8 % 2 ^ 32 := by
  rw [Nat.shiftRight_eq_div_pow]
  exact Nat.and_two_pow_sub_one_eq_mod _ 32

theorem fieldSizeAt_eq_extent (rest : Bytes) (ft f : Nat) (h0 : ft ≠ 0) :
    fieldSizeAt rest ft f = extent rest ft f := by
  have hp : ∀ n, paddingNeeded n = up8 n - n := by
    intro n; have := paddingNeeded_sum n; simp only [up8]; omega
  have hle : ∀ n, n ≤ up8 n := by intro n; simp only [up8]; omega
  have hf := hle f
  have hb := hle ((f + 7) / 8)
  unfold fieldSizeAt extent
  rw [and_mask24', and_mask32', hp f]
  have hl : (isListType ft = true) ↔ (41 ≤ ft ∧ ft ≤ 54 ∨ ft = 56) := by simp [isListType]
  simp only [hl, hp, FTBool, FTInt8, FTInt16, FTInt32, FTInt64, FTUint8, FTUint16, FTUint32, FTUint64,
    FTFloat32, FTFloat64, FTString, FTBytes, FTStruct, FTListBools, FTMap, FTAny, FTListAny,
    HeaderSize]
  repeat' split
  all_goals omega

theorem scanListAny_ge (rest : Bytes) : ∀ n p, p ≤ scanListAny rest n p := by
  intro n
  induction n with
  | zero => intro p; simp [scanListAny]
  | succ n ih =>
    intro p
    simp only [scanListAny]
    split
    · omega
    · split
      · omega
      · rename_i a b c _
        have := ih (p + AnyHashSize + c); omega

theorem extent_zero_iff (rest : Bytes) (ft f : Nat) : extent rest ft f = 0 ↔ DeclaresNothing ft f := by
  have := scanListAny_ge rest f 8
  unfold extent DeclaresNothing
  repeat' split
  all_goals (constructor <;> intro h <;> omega)

theorem drop_length_iff (data : Bytes) (p : Nat) : 8 ≤ (data.drop p).length ↔ p + 8 ≤ data.length := by
  simp; omega

/-- The parser hangs exactly when the walk from `p` gets stuck. -/
theorem parse_hang_stuck (data : Bytes) : ∀ (k p : Nat) (idx : List Entry), data.length + 1 - p = k →
    Reach data p → parseLoop p (data.drop p) idx = .hang → Stuck data := by
  intro k
  induction k using Nat.strongRecOn with
  | _ k ih =>
    intro p idx hk hreach h
    rw [parseLoop_eq] at h
    split at h
    · rename_i hle
      rw [HeaderSize, drop_length_iff] at hle
      cases hd : decodeHeader (data.drop p) with
      | none => rw [hd] at h; simp at h
      | some t =>
        obtain ⟨fn, ft, f⟩ := t
        rw [hd] at h
        simp only at h
        split at h
        · simp at h
        · rename_i hft
          rw [fieldSizeAt_eq_extent _ _ _ hft] at h
          have hh : FieldHdr data p fn ft f := ⟨hle, hd, hft⟩
          split at h
          · rename_i hz
            exact ⟨p, fn, ft, f, hreach, hh, hz⟩
          · rename_i hz
            rw [List.drop_drop] at h
            exact ih _ (by omega) _ _ rfl (.next hreach hh (by omega)) h
    · simp at h

theorem parse_ok_of_reach (data : Bytes) {p : Nat} (hr : Reach data p) :
    ∀ (idx out : List Entry), parseLoop 8 (data.drop 8) idx = .ok out →
      ∃ idx', parseLoop p (data.drop p) idx' = .ok out := by
  induction hr with
  | start => intro idx out h; exact ⟨idx, h⟩
  | @next p fn ft f hr hh hpos ih =>
    intro idx out h
    obtain ⟨idx', h'⟩ := ih idx out h
    rw [parseLoop_eq, if_pos ((drop_length_iff _ _).mpr hh.1), hh.2.1] at h'
    simp only [if_neg hh.2.2, fieldSizeAt_eq_extent _ _ _ hh.2.2] at h'
    rw [if_neg (by omega), List.drop_drop] at h'
    exact ⟨_, h'⟩

theorem parse_hang_iff_stuck (data : Bytes) (idx : List Entry) :
    parseLoop 8 (data.drop 8) idx = .hang ↔ Stuck data := by
  constructor
  · exact parse_hang_stuck data _ 8 idx rfl .start
  · rintro ⟨p, fn, ft, f, hr, hh, hz⟩
    cases h : parseLoop 8 (data.drop 8) idx with
    | hang => rfl
    | panic => exact absurd h (parseLoop_ne_panic _ _ _)
    | ok out =>
      exfalso
      obtain ⟨idx', h'⟩ := parse_ok_of_reach data hr idx out h
      rw [parseLoop_eq, if_pos ((drop_length_iff _ _).mpr hh.1), hh.2.1] at h'
      simp only [if_neg hh.2.2, fieldSizeAt_eq_extent _ _ _ hh.2.2, if_pos hz] at h'
      simp at h'

/-- Index entries come from headers the walk met. -/
def EntriesOK (data : Bytes) (idx : List Entry) : Prop :=
  ∀ (i : Nat) (e : Entry), idx[i]? = some e → e = Entry.zero ∨
    ∃ p ft f, Reach data p ∧ FieldHdr data p i ft f ∧
      e = ⟨p % 2 ^ 32, extent (data.drop p) ft f % 2 ^ 32, true⟩

theorem EntriesOK.replicate (data : Bytes) (m : Nat) : EntriesOK data (List.replicate m Entry.zero) := by
  intro i e h
  rw [List.getElem?_replicate] at h
  split at h
  · left; simpa using h.symm
  · simp at h

theorem parse_entries (data : Bytes) : ∀ (k p : Nat) (idx out : List Entry), data.length + 1 - p = k →
    Reach data p → EntriesOK data idx → parseLoop p (data.drop p) idx = .ok out →
    EntriesOK data out ∧ out.length = idx.length := by
  intro k
  induction k using Nat.strongRecOn with
  | _ k ih =>
    intro p idx out hk hreach hok h
    rw [parseLoop_eq] at h
    split at h
    · rename_i hle
      rw [HeaderSize, drop_length_iff] at hle
      cases hd : decodeHeader (data.drop p) with
      | none => rw [hd] at h; simp at h; subst h; exact ⟨hok, rfl⟩
      | some t =>
        obtain ⟨fn, ft, f⟩ := t
        rw [hd] at h
        simp only at h
        split at h
        · simp at h; subst h; exact ⟨hok, rfl⟩
        · rename_i hft
          rw [fieldSizeAt_eq_extent _ _ _ hft] at h
          have hh : FieldHdr data p fn ft f := ⟨hle, hd, hft⟩
          split at h
          · simp at h
          · rename_i hz
            rw [List.drop_drop] at h
            have hstep : EntriesOK data (recordEntry idx fn p (extent (data.drop p) ft f)) := by
              intro i e he
              unfold recordEntry at he
              split at he
              · rw [List.getElem?_set] at he
                split at he
                · rename_i hfi
                  subst hfi
                  right; exact ⟨p, ft, f, hreach, hh, by simpa using he.symm⟩
                · exact hok i e he
              · exact hok i e he
            have := ih _ (by omega) _ _ _ rfl (.next hreach hh (by omega)) hstep h
            refine ⟨this.1, ?_⟩
            rw [this.2]
            unfold recordEntry; split <;> simp
    · simp at h; subst h; exact ⟨hok, rfl⟩

/-- A struct whose bytes are `data` (of any content) and whose index, if any, was read off them. -/
structure Decoded (d : Bytes) (s : St) : Prop where
  data : s.seg.data = d
  entries : EntriesOK d s.idx

theorem Decoded.ensure {data : Bytes} {s : St} (h : Decoded data s) (hns : ¬ Stuck data) :
    ∃ s', s.ensure = .ok s' ∧ Decoded data s' ∧ s'.seg = s.seg := by
  unfold St.ensure
  by_cases hp : s.parsed = true
  · exact ⟨s, by simp [hp], h, rfl⟩
  · simp only [hp, Bool.false_eq_true, if_false, St.parseFieldIndex, h.data, HeaderSize]
    cases hl : parseLoop 8 (data.drop 8) s.idx with
    | hang => exact absurd ((parse_hang_iff_stuck data s.idx).mp hl) hns
    | panic => exact absurd hl (parseLoop_ne_panic _ _ _)
    | ok out =>
      have := parse_entries data _ 8 s.idx out rfl .start h.entries hl
      exact ⟨_, rfl, ⟨h.data, this.1⟩, rfl⟩

theorem Decoded.ensure_hang {data : Bytes} {s : St} (h : Decoded data s) (hp : s.parsed = false)
    (hst : Stuck data) : s.ensure = .hang := by
  simp only [St.ensure, hp, Bool.false_eq_true, if_false, St.parseFieldIndex, h.data, HeaderSize,
    (parse_hang_iff_stuck data s.idx).mpr hst]
  rfl

/-- What `FieldOffset` returns on hostile bytes. -/
theorem Decoded.fieldOffset {data : Bytes} {s : St} (h : Decoded data s) (hns : ¬ Stuck data)
    (hlen : data.length < 2 ^ 32) (i : Nat) :
    ∃ o sz s', s.fieldOffset i = .ok ((o, sz), s') ∧ s'.seg = s.seg ∧
      (sz = 0 ∨ ∃ ft f, Reach data o ∧ FieldHdr data o i ft f ∧
        sz = extent (data.drop o) ft f % 2 ^ 32) := by
  obtain ⟨s', he, hd, hseg⟩ := h.ensure hns
  unfold St.fieldOffset
  rw [he]
  simp only [Res.ok_bind]
  cases hi : s'.idx[i]? with
  | none => exact ⟨0, 0, s', rfl, hseg, Or.inl rfl⟩
  | some e =>
    refine ⟨e.offset, e.size, s', rfl, hseg, ?_⟩
    rcases hd.entries i e hi with hz | ⟨p, ft, f, hr, hh, hee⟩
    · left; simp [hz, Entry.zero]
    · right
      have : p < 2 ^ 32 := by have := hh.1; omega
      rw [hee]
      simp only [Nat.mod_eq_of_lt this]
      exact ⟨ft, f, hr, hh, rfl⟩

theorem decodeHeader_take8 (b : Bytes) (h : 8 ≤ b.length) : decodeHeader (b.take 8) = decodeHeader b := by
  obtain ⟨fn, ft, f, h1, h2, h3, hb⟩ := hdr_surj (b := b.take 8) (by simp; omega)
  have e1 := decodeHeader_hdr h1 h2 h3 []
  have e2 := decodeHeader_hdr h1 h2 h3 (b.drop 8)
  rw [List.append_nil] at e1
  rw [← hb, List.take_append_drop] at e2
  rw [e2, hb, e1]

theorem Seg.sub_inside (g : Seg) {a b : Nat} (hab : a ≤ b) (hb : b ≤ g.data.length) :
    g.sub a b = .ok (slice g.data a b) := by
  unfold Seg.sub
  rw [if_pos ⟨hab, by simp only [Seg.cap]; omega⟩, slice, slice, List.take_append_of_le_length hb]

theorem header_at {data : Bytes} {p i ft f : Nat} (hh : FieldHdr data p i ft f) :
    decodeHeader (slice data p (p + 8)) = some (i, ft, f) := by
  have : slice data p (p + 8) = (data.drop p).take 8 := by
    rw [slice, List.drop_take]; congr 1; omega
  rw [this, decodeHeader_take8 _ ((drop_length_iff _ _).mpr hh.1)]
  exact hh.2.1

end Claw
