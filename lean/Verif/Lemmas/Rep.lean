import Verif.Lemmas.Parse
import Verif.Lemmas.Segment

/-!
# The representation invariant of a struct

The abstract state of a struct is the list `fs` of its encoded fields, one per field number,
`[]` for an absent field. `fs` may be longer than the schema of the reader: the extra fields are
those of a newer schema, carried along unread.
-/

namespace Claw

/-- Encoded field `i`, `[]` when absent. -/
def blob (fs : List Bytes) (i : Nat) : Bytes := fs.getD i []

def offsetOf (fs : List Bytes) (i : Nat) : Nat := 8 + (fs.take i).flatten.length

def total (fs : List Bytes) : Nat := 8 + fs.flatten.length

def entryOf (fs : List Bytes) (i : Nat) : Entry :=
  if blob fs i = [] then Entry.zero else ⟨offsetOf fs i, (blob fs i).length, true⟩

def idxOf (m : Nat) (fs : List Bytes) : List Entry := (List.range m).map (entryOf fs)

/-- `b` is a complete encoded field with number `i`: its header says so and the parser skips
exactly its bytes whatever follows. -/
structure WFBlob (i : Nat) (b : Bytes) : Prop where
  len : 8 ≤ b.length
  hdr : ∃ ft f, ft ≠ 0 ∧ (∀ rest, decodeHeader (b ++ rest) = some (i, ft, f)) ∧
    ∀ rest, fieldSizeAt (b ++ rest) ft f = b.length

def WFs (fs : List Bytes) : Prop := ∀ i, blob fs i = [] ∨ WFBlob i (blob fs i)

@[simp] theorem idxOf_length (m : Nat) (fs : List Bytes) : (idxOf m fs).length = m := by
  simp [idxOf]

theorem idxOf_getElem? (m : Nat) (fs : List Bytes) (i : Nat) :
    (idxOf m fs)[i]? = if i < m then some (entryOf fs i) else none := by
  simp only [idxOf, List.getElem?_map]
  split
  · rename_i h; simp [List.getElem?_range h]
  · rename_i h; rw [List.getElem?_eq_none (by simp; omega)]; rfl

theorem blob_set (fs : List Bytes) (n : Nat) (b : Bytes) (h : n < fs.length) (i : Nat) :
    blob (fs.set n b) i = if i = n then b else blob fs i := by
  simp only [blob, List.getD_eq_getElem?_getD, List.getElem?_set]
  by_cases hi : n = i
  · subst hi; simp [h]
  · rw [if_neg hi, if_neg (fun e => hi e.symm)]

theorem blob_eq_getElem (fs : List Bytes) (i : Nat) (h : i < fs.length) : blob fs i = fs[i] := by
  simp [blob, List.getD_eq_getElem?_getD, h]

theorem blob_ge (fs : List Bytes) (i : Nat) (h : fs.length ≤ i) : blob fs i = [] := by
  simp [blob, List.getD_eq_getElem?_getD, h]

theorem offsetOf_succ (fs : List Bytes) (i : Nat) :
    offsetOf fs (i + 1) = offsetOf fs i + (blob fs i).length := by
  simp only [offsetOf, blob]
  rw [List.take_add_one]
  simp only [List.flatten_append, List.length_append, List.getD_eq_getElem?_getD]
  cases fs[i]? <;> simp <;> omega

theorem offsetOf_mono (fs : List Bytes) {i j : Nat} (h : i ≤ j) : offsetOf fs i ≤ offsetOf fs j := by
  induction j with
  | zero => have : i = 0 := by omega
            subst this; omega
  | succ j ih =>
    rcases Nat.lt_or_ge i (j + 1) with h' | h'
    · have := ih (by omega); rw [offsetOf_succ]; omega
    · have : i = j + 1 := by omega
      subst this; omega

theorem offsetOf_le_total (fs : List Bytes) (i : Nat) : offsetOf fs i + (blob fs i).length ≤ total fs := by
  rw [← offsetOf_succ]
  simp only [offsetOf, total]
  have : fs.flatten = (fs.take (i+1)).flatten ++ (fs.drop (i+1)).flatten := by
    rw [← List.flatten_append, List.take_append_drop]
  rw [this]; simp only [List.length_append]; omega

theorem offsetOf_step (fs : List Bytes) {i j : Nat} (h : i < j) :
    offsetOf fs i + (blob fs i).length ≤ offsetOf fs j := by
  rw [← offsetOf_succ]; exact offsetOf_mono fs h

theorem flatten_set_length (fs : List Bytes) (n : Nat) (b : Bytes) (h : n < fs.length) :
    (fs.set n b).flatten.length + (blob fs n).length = fs.flatten.length + b.length := by
  induction fs generalizing n with
  | nil => simp at h
  | cons x fs ih =>
    cases n with
    | zero => simp [blob]; omega
    | succ n =>
      have := ih n (by simpa using h)
      simp only [List.set_cons_succ, List.flatten_cons, List.length_append] at *
      have e : blob (x :: fs) (n + 1) = blob fs n := by simp [blob]
      rw [e]; omega

theorem offsetOf_set_le (fs : List Bytes) (n : Nat) (b : Bytes) {i : Nat} (h : i ≤ n) :
    offsetOf (fs.set n b) i = offsetOf fs i := by
  simp only [offsetOf, List.take_set]
  rw [List.set_eq_of_length_le]
  simp; omega

theorem offsetOf_set_gt (fs : List Bytes) (n : Nat) (b : Bytes) (hn : n < fs.length) {i : Nat}
    (h : n < i) : offsetOf (fs.set n b) i + (blob fs n).length = offsetOf fs i + b.length := by
  simp only [offsetOf, List.take_set]
  have := flatten_set_length (fs.take i) n b (by simp; omega)
  have e : blob (fs.take i) n = blob fs n := by
    simp [blob, List.getD_eq_getElem?_getD, h]
  rw [e] at this; omega

theorem total_set (fs : List Bytes) (n : Nat) (b : Bytes) (hn : n < fs.length) :
    total (fs.set n b) + (blob fs n).length = total fs + b.length := by
  simp only [total]
  have := flatten_set_length fs n b hn
  omega

theorem WFs.set {fs : List Bytes} (h : WFs fs) (n : Nat) (b : Bytes) (hn : n < fs.length)
    (hb : b = [] ∨ WFBlob n b) : WFs (fs.set n b) := by
  intro i
  rw [blob_set fs n b hn]
  split
  · rename_i hi; subst hi; exact hb
  · exact h i

/-! ### Parsing canonical bytes -/

/-- The entries recorded while skipping the fields `fs`, numbered from `k`, at `pos`. -/
def overlay (idx : List Entry) (k pos : Nat) : List Bytes → List Entry
  | [] => idx
  | b :: bs =>
    if b = [] then overlay idx (k + 1) pos bs
    else overlay (recordEntry idx k pos b.length) (k + 1) (pos + b.length) bs

theorem parse_fields (fs : List Bytes) (tail : Bytes) :
    ∀ (k pos : Nat) (idx : List Entry),
    (∀ i, blob fs i = [] ∨ WFBlob (k + i) (blob fs i)) →
    parseLoop pos (fs.flatten ++ tail) idx
      = parseLoop (pos + fs.flatten.length) tail (overlay idx k pos fs) := by
  induction fs with
  | nil => intro k pos idx _; simp [overlay]
  | cons b bs ih =>
    intro k pos idx hwf
    have hwf' : ∀ i, blob bs i = [] ∨ WFBlob (k + 1 + i) (blob bs i) := by
      intro i
      have := hwf (i + 1)
      simp only [blob, List.getD_cons_succ] at this ⊢
      rwa [show k + 1 + i = k + (i + 1) by omega]
    by_cases hb : b = []
    · subst hb
      simp only [List.flatten_cons, List.nil_append, overlay, if_true]
      exact ih (k + 1) pos idx hwf'
    · have h0 := hwf 0
      simp only [blob, List.getD_cons_zero, Nat.add_zero] at h0
      rcases h0 with h0 | h0
      · exact absurd h0 hb
      obtain ⟨ft, f, hft, hdec, hsz⟩ := h0.hdr
      have hlen := h0.len
      rw [List.flatten_cons, List.append_assoc, parseLoop_eq]
      rw [if_pos (by simp [HeaderSize]; omega), hdec]
      simp only [hft, if_false, hsz]
      rw [if_neg (by omega), List.drop_left, ih (k + 1) _ _ hwf']
      simp only [overlay, hb, if_false, List.length_append]
      rw [Nat.add_assoc]

theorem recordEntry_length (idx : List Entry) (a b c : Nat) :
    (recordEntry idx a b c).length = idx.length := by
  simp only [recordEntry]; split <;> simp

theorem overlay_length (fs : List Bytes) : ∀ (idx : List Entry) (k pos : Nat),
    (overlay idx k pos fs).length = idx.length := by
  induction fs with
  | nil => intros; rfl
  | cons b bs ih =>
    intro idx k pos
    simp only [overlay]
    split
    · exact ih _ _ _
    · rw [ih, recordEntry_length]

theorem overlay_getElem? (fs : List Bytes) : ∀ (idx : List Entry) (k pos : Nat) (i : Nat),
    pos + fs.flatten.length < 2 ^ 32 →
    (overlay idx k pos fs)[i]? =
      if i < idx.length then
        if k ≤ i ∧ blob fs (i - k) ≠ [] then
          some ⟨pos + (fs.take (i - k)).flatten.length, (blob fs (i - k)).length, true⟩
        else idx[i]?
      else none := by
  induction fs with
  | nil =>
    intro idx k pos i _
    by_cases hi : i < idx.length
    · simp [overlay, blob, hi]
    · rw [if_neg hi]; exact List.getElem?_eq_none (by simpa [overlay] using hi)
  | cons b bs ih =>
    intro idx k pos i hlt
    simp only [List.flatten_cons, List.length_append] at hlt
    by_cases hi : i < idx.length
    · rw [if_pos hi]
      simp only [overlay]
      by_cases hb : b = []
      · subst hb
        rw [if_pos rfl, ih _ _ _ _ (by simpa using hlt), if_pos hi]
        rcases Nat.lt_trichotomy i k with h | h | h
        · rw [if_neg (by omega), if_neg (by omega)]
        · subst h
          rw [if_neg (by omega)]
          simp [blob]
        · obtain ⟨d, rfl⟩ : ∃ d, i = k + 1 + d := ⟨i - (k+1), by omega⟩
          have e1 : k + 1 + d - (k + 1) = d := by omega
          have e2 : k + 1 + d - k = d + 1 := by omega
          simp only [e1, e2, blob, List.getD_cons_succ, List.take_succ_cons, List.flatten_cons,
            List.nil_append]
          by_cases hd : bs.getD d [] = []
          · rw [if_neg (fun h => h.2 hd), if_neg (fun h => h.2 hd)]
          · rw [if_pos ⟨by omega, hd⟩, if_pos ⟨by omega, hd⟩]
      · rw [if_neg hb, ih _ _ _ _ (by omega), recordEntry_length, if_pos hi]
        rcases Nat.lt_trichotomy i k with h | h | h
        · rw [if_neg (by omega), if_neg (by omega)]
          simp only [recordEntry]
          split
          · rw [List.getElem?_set_ne (by omega)]
          · rfl
        · subst h
          rw [if_neg (by omega)]
          simp only [recordEntry, hi, if_true, List.getElem?_set_self]
          rw [if_pos ⟨by omega, by simpa [blob] using hb⟩]
          simp only [Nat.sub_self, List.take_zero, List.flatten_nil, List.length_nil, Nat.add_zero,
            blob, List.getD_cons_zero]
          rw [Nat.mod_eq_of_lt (by omega), Nat.mod_eq_of_lt (by omega)]
        · obtain ⟨d, rfl⟩ : ∃ d, i = k + 1 + d := ⟨i - (k+1), by omega⟩
          have e1 : k + 1 + d - (k + 1) = d := by omega
          have e2 : k + 1 + d - k = d + 1 := by omega
          simp only [e1, e2, blob, List.getD_cons_succ, List.take_succ_cons, List.flatten_cons,
            List.length_append]
          by_cases hd : bs.getD d [] = []
          · rw [if_neg (fun h => h.2 hd), if_neg (fun h => h.2 hd)]
            simp only [recordEntry]
            split
            · rw [List.getElem?_set_ne (by omega)]
            · rfl
          · rw [if_pos ⟨by omega, hd⟩, if_pos ⟨by omega, hd⟩]
            simp only [Option.some.injEq, Entry.mk.injEq, and_true]
            omega
    · rw [if_neg hi]
      exact List.getElem?_eq_none (by rw [overlay_length]; omega)

/-- Parsing canonical bytes gives the canonical index, provided the entries of absent fields were
zero before. -/
theorem overlay_eq_idxOf (fs : List Bytes) (idx : List Entry) (hlt : total fs < 2 ^ 32)
    (h0 : ∀ i, i < idx.length → blob fs i = [] → idx[i]? = some Entry.zero) :
    overlay idx 0 8 fs = idxOf idx.length fs := by
  apply List.ext_getElem?
  intro i
  rw [overlay_getElem? fs idx 0 8 i hlt, idxOf_getElem?]
  by_cases hi : i < idx.length
  · simp only [hi, if_true, Nat.sub_zero, Nat.zero_le, true_and]
    by_cases hb : blob fs i = []
    · simp [hb, entryOf, h0 i hi hb]
    · simp [hb, entryOf, offsetOf]
  · simp [hi]

/-! ### The invariant -/

/-- `s` represents the fields `fs` under root field number `r`. -/
structure Rep (r : Nat) (s : St) (fs : List Bytes) : Prop where
  data : s.seg.data = hdr r FTStruct (total fs) ++ fs.flatten
  len : s.idx.length ≤ fs.length
  wf : WFs fs
  small : total fs < 2 ^ 32
  idx_parsed : s.parsed = true → s.idx = idxOf s.idx.length fs
  idx_unparsed : s.parsed = false →
    ∀ i, i < s.idx.length → blob fs i = [] → s.idx[i]? = some Entry.zero

theorem parse_rep {r : Nat} {s : St} {fs : List Bytes} (hd : s.seg.data = hdr r FTStruct (total fs) ++ fs.flatten)
    (wf : WFs fs) (small : total fs < 2 ^ 32)
    (h0 : ∀ i, i < s.idx.length → blob fs i = [] → s.idx[i]? = some Entry.zero) :
    s.parseFieldIndex = .ok { s with idx := idxOf s.idx.length fs } := by
  have hdrop : s.seg.data.drop HeaderSize = fs.flatten ++ [] := by
    rw [hd]; exact (List.drop_left' (by simp)).trans (by simp)
  have hp := parse_fields fs [] 0 HeaderSize s.idx (by intro i; rw [Nat.zero_add]; exact wf i)
  have hend : ∀ p i, parseLoop p [] i = .ok i := by
    intro p i; rw [parseLoop_eq]; simp [HeaderSize]
  simp only [St.parseFieldIndex]
  rw [hdrop, hp, hend, overlay_eq_idxOf fs s.idx small h0]
  rfl

theorem Rep.ensure {r : Nat} {s : St} {fs : List Bytes} (h : Rep r s fs) :
    s.ensure = .ok { s with idx := idxOf s.idx.length fs, parsed := true } := by
  by_cases hp : s.parsed = true
  · have := h.idx_parsed hp
    simp only [St.ensure, hp, if_true, Res.pure_eq]
    rw [← this]
    cases s; simp at hp ⊢; exact hp
  · have hp' : s.parsed = false := by simpa using hp
    have := parse_rep h.data h.wf h.small (h.idx_unparsed hp')
    simp only [St.ensure, hp', this]
    rfl

theorem Rep.parsed {r : Nat} {s : St} {fs : List Bytes} (h : Rep r s fs) :
    Rep r { s with idx := idxOf s.idx.length fs, parsed := true } fs :=
  ⟨h.data, by simpa using h.len, h.wf, h.small, by simp, by simp⟩

/-- Offsets after the size of field `n` changed. -/
theorem shift_idx (m : Nat) (fs : List Bytes) (n : Nat) (b : Bytes) (wf : WFs fs)
    (hn : n < fs.length) (hm : n < m) (hs' : total (fs.set n b) < 2 ^ 32) :
    (St.updateFieldOffsets (idxOf m fs) (offsetOf fs n + (blob fs n).length)
      ((b.length : Int) - (blob fs n).length)).set n (entryOf (fs.set n b) n)
      = idxOf m (fs.set n b) := by
  apply List.ext_getElem?
  intro i
  rw [idxOf_getElem?, List.getElem?_set]
  have hlen : (St.updateFieldOffsets (idxOf m fs) (offsetOf fs n + (blob fs n).length)
      ((b.length : Int) - (blob fs n).length)).length = m := by simp [St.updateFieldOffsets]
  by_cases hi : n = i
  · subst hi; simp [hlen, hm]
  · rw [if_neg hi]
    simp only [St.updateFieldOffsets, List.getElem?_map, idxOf_getElem?]
    by_cases him : i < m
    · rw [if_pos him, if_pos him]
      simp only [Option.map_some, Option.some.injEq]
      by_cases hb : blob fs i = []
      · have hb' : blob (fs.set n b) i = [] := by rw [blob_set fs n b hn, if_neg (Ne.symm hi)]; exact hb
        simp [entryOf, hb, hb', Entry.zero]
      · have hb' : blob (fs.set n b) i = blob fs i := by rw [blob_set fs n b hn, if_neg (Ne.symm hi)]
        have hpos : 8 ≤ (blob fs i).length := by
          rcases wf i with h | h
          · exact absurd h hb
          · exact h.len
        simp only [entryOf, hb, hb', if_false]
        rcases Nat.lt_or_ge i n with hlt | hge
        · have hstep := offsetOf_step fs hlt
          rw [if_neg (by simp; omega), offsetOf_set_le fs n b (by omega)]
        · have hgt : n < i := by omega
          have hstep := offsetOf_step fs hgt
          have hset := offsetOf_set_gt fs n b hn hgt
          have hle := offsetOf_le_total (fs.set n b) i
          rw [if_pos (by simp; omega)]
          simp only [Entry.mk.injEq, and_true]
          have : ((offsetOf fs i : Int) + ((b.length : Int) - (blob fs n).length))
              = (offsetOf (fs.set n b) i : Int) := by omega
          rw [this]
          omega
    · simp [him]

theorem findInsertPosition_eq (s : St) (m : Nat) (fs : List Bytes) (hidx : s.idx = idxOf m fs)
    (wf : WFs fs) (n : Nat) (hn : n ≤ m) : s.findInsertPosition n = offsetOf fs n := by
  have htake : (idxOf m fs).take n = (List.range n).map (entryOf fs) := by
    simp only [idxOf, ← List.map_take, List.take_range, Nat.min_eq_left hn]
  simp only [St.findInsertPosition, hidx, htake]
  clear htake hn
  induction n with
  | zero => simp [offsetOf, HeaderSize]
  | succ n ih =>
    rw [List.range_succ, List.map_append, List.foldl_append, ih, offsetOf_succ]
    simp only [List.map_cons, List.map_nil, List.foldl_cons, List.foldl_nil, entryOf]
    by_cases hb : blob fs n = []
    · simp [hb, Entry.zero]
    · have hpos : 8 ≤ (blob fs n).length := by
        rcases wf n with h | h
        · exact absurd h hb
        · exact h.len
      simp only [hb, if_false]
      rw [if_pos (by omega)]

theorem split_at (fs : List Bytes) (n : Nat) (b : Bytes) (hn : n < fs.length) :
    fs.flatten = (fs.take n).flatten ++ blob fs n ++ (fs.drop (n + 1)).flatten ∧
    (fs.set n b).flatten = (fs.take n).flatten ++ b ++ (fs.drop (n + 1)).flatten := by
  constructor
  · conv => lhs; rw [← List.take_append_drop n fs, List.drop_eq_getElem_cons hn]
    rw [blob_eq_getElem fs n hn, List.flatten_append, List.flatten_cons, List.append_assoc]
  · rw [List.set_eq_take_append_cons_drop, if_pos hn]
    simp

theorem updateHeaderSize_eq (s : St) (r f : Nat) (body : Bytes)
    (hd : s.seg.data = hdr r FTStruct f ++ body) (hs : 8 + body.length < 2 ^ 40) :
    s.updateHeaderSize = .ok { s with seg := ⟨hdr r FTStruct (8 + body.length) ++ body, s.seg.spare⟩ } := by
  simp only [St.updateHeaderSize]
  have hl : s.seg.data.length = 8 + body.length := by rw [hd]; simp
  rw [hl, Seg.putHeaderSize_eq s.seg r FTStruct f body hd _ hs]
  rfl

/-- Writing field `n` replaces its encoding and nothing else. -/
theorem insertField_rep {r : Nat} {s : St} {fs : List Bytes} (h : Rep r s fs) (n : Nat) (b : Bytes)
    (hn : n < s.idx.length) (hb : WFBlob n b) (hsmall : total (fs.set n b) < 2 ^ 32) :
    ∃ sp, s.insertField n b = .ok { s with
        seg := ⟨hdr r FTStruct (total (fs.set n b)) ++ (fs.set n b).flatten, sp⟩
        idx := idxOf s.idx.length (fs.set n b)
        parsed := true } ∧
      Rep r { s with
        seg := ⟨hdr r FTStruct (total (fs.set n b)) ++ (fs.set n b).flatten, sp⟩
        idx := idxOf s.idx.length (fs.set n b)
        parsed := true } (fs.set n b) := by
  have hlen := h.len
  have hnl : n < fs.length := by omega
  have hwf' : WFs (fs.set n b) := h.wf.set n b hnl (Or.inr hb)
  obtain ⟨hsp1, hsp2⟩ := split_at fs n b hnl
  have hentry : entryOf (fs.set n b) n = ⟨offsetOf fs n, b.length, true⟩ := by
    have hbne : b ≠ [] := by intro e; have := hb.len; simp [e] at this
    simp only [entryOf, blob_set fs n b hnl, if_true, hbne, if_false,
      offsetOf_set_le fs n b (Nat.le_refl n)]
  have hblen : b.length < 2 ^ 32 := by
    have := offsetOf_le_total (fs.set n b) n
    rw [blob_set fs n b hnl, if_pos rfl] at this; omega
  have hAlen : (hdr r FTStruct (total fs) ++ (fs.take n).flatten).length = offsetOf fs n := by
    simp [offsetOf]
  have hdata : s.seg.data = (hdr r FTStruct (total fs) ++ (fs.take n).flatten) ++ blob fs n
      ++ (fs.drop (n + 1)).flatten := by
    rw [h.data, hsp1]; simp [List.append_assoc]
  have hfin : ∀ sp, Rep r { s with
        seg := ⟨hdr r FTStruct (total (fs.set n b)) ++ (fs.set n b).flatten, sp⟩
        idx := idxOf s.idx.length (fs.set n b)
        parsed := true } (fs.set n b) := by
    intro sp
    exact ⟨rfl, by simpa using hlen, hwf', hsmall, by simp, by simp⟩
  have hshift := shift_idx s.idx.length fs n b h.wf hnl hn hsmall
  rw [hentry] at hshift
  -- the header update common to all branches
  have hupd : ∀ (g : Seg) (hg : g.data = hdr r FTStruct (total fs) ++ (fs.set n b).flatten),
      St.updateHeaderSize { s with
        seg := g, idx := idxOf s.idx.length (fs.set n b), parsed := true } = .ok { s with
        seg := ⟨hdr r FTStruct (total (fs.set n b)) ++ (fs.set n b).flatten, g.spare⟩
        idx := idxOf s.idx.length (fs.set n b)
        parsed := true } := by
    intro g hg
    rw [updateHeaderSize_eq _ r (total fs) _ hg (by simp only [total] at hsmall; omega)]
    rfl
  simp only [St.insertField, h.ensure, Res.ok_bind]
  rw [idxOf_getElem?, if_pos hn]
  simp only
  by_cases hold : blob fs n = []
  · -- new field
    have he : entryOf fs n = Entry.zero := by simp [entryOf, hold]
    rw [he]
    simp only [Entry.zero, Nat.lt_irrefl, gt_iff_lt, if_false]
    rw [findInsertPosition_eq _ s.idx.length fs rfl h.wf n (by omega)]
    have hdata' : s.seg.data = (hdr r FTStruct (total fs) ++ (fs.take n).flatten)
        ++ (fs.drop (n + 1)).flatten := by rw [hdata, hold]; simp
    obtain ⟨g, hg1, hg2⟩ := Seg.insertAt_eq s.seg _ _ b hdata'
    rw [hAlen] at hg1
    rw [hg1]
    simp only [Res.ok_bind]
    have hoff : offsetOf fs n < 2 ^ 32 := by
      have := offsetOf_le_total fs n; have := h.small; omega
    rw [Nat.mod_eq_of_lt hoff, Nat.mod_eq_of_lt hblen]
    simp only [hold, List.length_nil, Nat.add_zero, Int.natCast_zero, Int.sub_zero] at hshift
    have hshift' : (St.updateFieldOffsets (idxOf s.idx.length fs) (offsetOf fs n) (b.length : Int)).set n
        ⟨offsetOf fs n, b.length, true⟩ = idxOf s.idx.length (fs.set n b) := by
      simpa using hshift
    rw [hshift']
    refine ⟨g.spare, ?_, hfin _⟩
    apply hupd
    rw [hg2, hsp2]; simp [List.append_assoc]
  · have hpos : 8 ≤ (blob fs n).length := by
      rcases h.wf n with h' | h'
      · exact absurd h' hold
      · exact h'.len
    have he : entryOf fs n = ⟨offsetOf fs n, (blob fs n).length, true⟩ := by simp [entryOf, hold]
    rw [he]
    simp only
    rw [if_pos (by omega), Nat.mod_eq_of_lt hblen]
    by_cases hsame : b.length = (blob fs n).length
    · rw [if_pos hsame]
      have hle : ¬ offsetOf fs n > s.seg.data.length := by
        have hx := offsetOf_le_total fs n
        have : s.seg.data.length = total fs := by rw [h.data]; simp [total]
        omega
      rw [if_neg hle]
      have hshift' : (idxOf s.idx.length fs).set n ⟨offsetOf fs n, b.length, true⟩
          = idxOf s.idx.length (fs.set n b) := by
        rw [← hshift]
        congr 1
        rw [hsame, Int.sub_self]
        simp only [St.updateFieldOffsets]
        conv => lhs; rw [← List.map_id (idxOf s.idx.length fs)]
        apply List.map_congr_left
        intro e he
        simp only [idxOf, List.mem_map, List.mem_range] at he
        obtain ⟨i, _, rfl⟩ := he
        simp only [id]
        split
        · rename_i hc
          have hlt : (entryOf fs i).offset < 2 ^ 32 := by
            simp only [entryOf]
            split
            · simp [Entry.zero]
            · have := offsetOf_le_total fs i; have := h.small; simp only; omega
          have : ((((entryOf fs i).offset : Int) + 0) % 2 ^ 32).toNat = (entryOf fs i).offset := by
            omega
          rw [this]
        · rfl
      have hcopy := goCopy_fit' (dst := s.seg.data) (off := offsetOf fs n) _ (blob fs n) _ b hdata hAlen.symm hsame
      refine ⟨s.seg.spare, ?_, hfin _⟩
      rw [hshift', hcopy]
      apply hupd
      simp [hsp2, List.append_assoc]
    · rw [if_neg hsame]
      obtain ⟨g, hg1, hg2⟩ := Seg.replaceAt_eq s.seg _ _ _ b hdata
      rw [hAlen] at hg1
      rw [hg1]
      simp only [Res.ok_bind]
      rw [hshift]
      refine ⟨g.spare, ?_, hfin _⟩
      apply hupd
      rw [hg2, hsp2]; simp [List.append_assoc]

/-- Removing field `n` erases its encoding and nothing else. -/
theorem removeField_rep {r : Nat} {s : St} {fs : List Bytes} (h : Rep r s fs) (n : Nat)
    (hn : n < s.idx.length) :
    ∃ sp, s.removeField n = .ok { s with
        seg := ⟨hdr r FTStruct (total (fs.set n [])) ++ (fs.set n []).flatten, sp⟩
        idx := idxOf s.idx.length (fs.set n [])
        parsed := true } ∧
      Rep r { s with
        seg := ⟨hdr r FTStruct (total (fs.set n [])) ++ (fs.set n []).flatten, sp⟩
        idx := idxOf s.idx.length (fs.set n [])
        parsed := true } (fs.set n []) := by
  have hlen := h.len
  have hnl : n < fs.length := by omega
  have hwf' : WFs (fs.set n []) := h.wf.set n [] hnl (Or.inl rfl)
  obtain ⟨hsp1, hsp2⟩ := split_at fs n [] hnl
  have htot := total_set fs n [] hnl
  have hsmall : total (fs.set n []) < 2 ^ 32 := by
    have := h.small; simp at htot; omega
  have hfin : ∀ sp, Rep r { s with
        seg := ⟨hdr r FTStruct (total (fs.set n [])) ++ (fs.set n []).flatten, sp⟩
        idx := idxOf s.idx.length (fs.set n [])
        parsed := true } (fs.set n []) := by
    intro sp
    exact ⟨rfl, by simpa using hlen, hwf', hsmall, by simp, by simp⟩
  have hAlen : (hdr r FTStruct (total fs) ++ (fs.take n).flatten).length = offsetOf fs n := by
    simp [offsetOf]
  have hdata : s.seg.data = (hdr r FTStruct (total fs) ++ (fs.take n).flatten) ++ blob fs n
      ++ (fs.drop (n + 1)).flatten := by
    rw [h.data, hsp1]; simp [List.append_assoc]
  simp only [St.removeField, h.ensure, Res.ok_bind]
  rw [idxOf_getElem?, if_pos hn]
  simp only
  by_cases hold : blob fs n = []
  · have he : entryOf fs n = Entry.zero := by simp [entryOf, hold]
    have hset : fs.set n [] = fs := by
      rw [← hold, blob_eq_getElem fs n hnl]; exact List.set_getElem_self hnl
    rw [he]
    simp only [Entry.zero, if_true, Res.pure_eq]
    refine ⟨s.seg.spare, ?_, hfin _⟩
    simp only [hset, ← h.data]
  · have hpos : 8 ≤ (blob fs n).length := by
      rcases h.wf n with h' | h'
      · exact absurd h' hold
      · exact h'.len
    have he : entryOf fs n = ⟨offsetOf fs n, (blob fs n).length, true⟩ := by simp [entryOf, hold]
    have hshift := shift_idx s.idx.length fs n [] h.wf hnl hn hsmall
    have hentry : entryOf (fs.set n []) n = Entry.zero := by
      simp [entryOf, blob_set fs n [] hnl]
    rw [hentry] at hshift
    rw [he]
    simp only
    rw [if_neg (by omega)]
    obtain ⟨g, hg1, hg2⟩ := Seg.removeAt_eq s.seg _ _ _ hdata
    rw [hAlen] at hg1
    rw [hg1]
    simp only [Res.ok_bind]
    have hshift' : (St.updateFieldOffsets (idxOf s.idx.length fs) (offsetOf fs n + (blob fs n).length)
        (-((blob fs n).length : Int))).set n Entry.zero = idxOf s.idx.length (fs.set n []) := by
      rw [← hshift]; simp
    rw [hshift']
    refine ⟨g.spare, ?_, hfin _⟩
    rw [updateHeaderSize_eq _ r (total fs) (fs.set n []).flatten (by
      simp only [hg2, hsp2]; simp [List.append_assoc]) (by simp only [total] at hsmall; omega)]
    rfl

end Claw
