import Verif.Model.Struct
import Verif.Lemmas.Header

/-!
# The field-index parser
-/

namespace Claw

theorem parseFuel_mono : ∀ (n : Nat) (f : Nat) (pos : Nat) (rest : Bytes) (idx : List Entry),
    rest.length ≤ n → rest.length ≤ f → parseFuel f pos rest idx = parseFuel n pos rest idx := by
  intro n
  induction n with
  | zero =>
    intro f pos rest idx hn hf
    have hr : rest = [] := List.length_eq_zero_iff.mp (by omega)
    subst hr
    cases f <;> simp [parseFuel, HeaderSize]
  | succ n ih =>
    intro f pos rest idx hn hf
    cases f with
    | zero =>
      have hr : rest = [] := List.length_eq_zero_iff.mp (by omega)
      subst hr
      simp [parseFuel, HeaderSize]
    | succ f =>
      simp only [parseFuel]
      split
      · rename_i h8
        split
        · rfl
        · split
          · rfl
          · split
            · rfl
            · apply ih <;> (simp [HeaderSize] at *; omega)
      · rfl

/-- The recursion equation of the parser, without fuel. -/
theorem parseLoop_eq (pos : Nat) (rest : Bytes) (idx : List Entry) :
    parseLoop pos rest idx =
      if HeaderSize ≤ rest.length then
        match decodeHeader rest with
        | none => .ok idx
        | some (fieldNum, fieldType, final40) =>
          if fieldType = 0 then .ok idx
          else
            if fieldSizeAt rest fieldType final40 = 0 then .hang
            else parseLoop (pos + fieldSizeAt rest fieldType final40)
              (rest.drop (fieldSizeAt rest fieldType final40))
              (recordEntry idx fieldNum pos (fieldSizeAt rest fieldType final40))
      else .ok idx := by
  unfold parseLoop
  rw [parseFuel_mono (rest.length + 1) rest.length pos rest idx (by omega) (by omega)]
  simp only [parseFuel]
  by_cases h8 : HeaderSize ≤ rest.length
  · rw [if_pos h8, if_pos h8]
    cases hd : decodeHeader rest with
    | none => rfl
    | some t =>
      obtain ⟨fn, ft, f⟩ := t
      simp only
      split
      · rfl
      · split
        · rfl
        · apply parseFuel_mono <;> (simp; try omega)
  · rw [if_neg h8, if_neg h8]

/-- `n` turns of the loop of `parseFieldIndex` starting at `(pos, idx)`; `none` when the loop has
ended before. -/
def parseIter (data : Bytes) : Nat → Nat × List Entry → Option (Nat × List Entry)
  | 0, st => some st
  | n + 1, st => match parseStep data st.1 st.2 with
    | none => none
    | some st' => parseIter data n st'

theorem parseStep_eq (data : Bytes) (pos : Nat) (idx : List Entry) :
    parseStep data pos idx =
      if HeaderSize ≤ (data.drop pos).length then
        match decodeHeader (data.drop pos) with
        | none => none
        | some (fieldNum, fieldType, final40) =>
          if fieldType = 0 then none
          else some (pos + fieldSizeAt (data.drop pos) fieldType final40,
            recordEntry idx fieldNum pos (fieldSizeAt (data.drop pos) fieldType final40))
      else none := by
  unfold parseStep
  have : (pos + HeaderSize ≤ data.length) ↔ (HeaderSize ≤ (data.drop pos).length) := by
    simp [HeaderSize]; omega
  by_cases h : pos + HeaderSize ≤ data.length
  · rw [if_pos h, if_pos (this.mp h)]; rfl
  · rw [if_neg h, if_neg (fun h' => h (this.mpr h'))]

theorem parseLoop_eq' (data : Bytes) (pos : Nat) (idx : List Entry) :
    parseLoop pos (data.drop pos) idx =
      match parseStep data pos idx with
      | none => .ok idx
      | some (pos', idx') => if pos' = pos then .hang else parseLoop pos' (data.drop pos') idx' := by
  rw [parseLoop_eq, parseStep_eq]
  split
  · cases hd : decodeHeader (data.drop pos) with
    | none => rfl
    | some t =>
      obtain ⟨fn, ft, f⟩ := t
      simp only
      split
      · rfl
      · simp only [Nat.add_eq_left, List.drop_drop]
  · rfl

/-- The loop of the code ends in `idx'` exactly when the model says `ok idx'`. -/
theorem parse_ok_iff (data : Bytes) (pos : Nat) (idx idx' : List Entry) :
    parseLoop pos (data.drop pos) idx = .ok idx' ↔
      ∃ n pos', parseIter data n (pos, idx) = some (pos', idx') ∧ parseStep data pos' idx' = none := by
  constructor
  · generalize hl : data.length + 1 - pos = k
    induction k using Nat.strongRecOn generalizing pos idx with
    | _ k ih =>
      intro h
      rw [parseLoop_eq'] at h
      cases hs : parseStep data pos idx with
      | none =>
        rw [hs] at h
        refine ⟨0, pos, ?_, ?_⟩
        · simpa [parseIter] using h
        · simp only [Res.ok.injEq] at h; rw [← h]; exact hs
      | some st =>
        obtain ⟨p, i⟩ := st
        rw [hs] at h
        simp only at h
        by_cases hp : p = pos
        · simp [hp] at h
        · rw [if_neg hp] at h
          have hlt : pos < p ∧ pos + 8 ≤ data.length := by
            unfold parseStep at hs
            split at hs
            · rename_i hle
              split at hs
              · simp at hs
              · split at hs
                · simp at hs
                · simp only [Option.some.injEq, Prod.mk.injEq] at hs
                  simp [HeaderSize] at hle
                  omega
            · simp at hs
          obtain ⟨n, p', h1, h2⟩ := ih (data.length + 1 - p) (by omega) p i rfl h
          exact ⟨n + 1, p', by simp [parseIter, hs, h1], h2⟩
  · rintro ⟨n, pos', h1, h2⟩
    induction n generalizing pos idx with
    | zero =>
      simp only [parseIter, Option.some.injEq, Prod.mk.injEq] at h1
      obtain ⟨rfl, rfl⟩ := h1
      rw [parseLoop_eq', h2]
    | succ n ih =>
      simp only [parseIter] at h1
      cases hs : parseStep data pos idx with
      | none => rw [hs] at h1; simp at h1
      | some st =>
        obtain ⟨p, i⟩ := st
        rw [hs] at h1
        simp only at h1
        have := ih p i h1
        rw [parseLoop_eq', hs]
        simp only
        by_cases hp : p = pos
        · -- a turn that does not advance cannot lead to the end
          exfalso
          subst hp
          -- from (p, i) the same step repeats
          have hrep : ∀ j, ∃ j', parseStep data p j = some (p, j') := by
            intro j
            rw [parseStep_eq] at hs ⊢
            split at hs
            · rename_i hle
              rw [if_pos hle]
              cases hd : decodeHeader (data.drop p) with
              | none => rw [hd] at hs; simp at hs
              | some t =>
                obtain ⟨fn, ft, f⟩ := t
                rw [hd] at hs
                simp only at hs ⊢
                split at hs
                · simp at hs
                · rename_i hft
                  rw [if_neg hft]
                  simp only [Option.some.injEq, Prod.mk.injEq] at hs
                  exact ⟨recordEntry j fn p (fieldSizeAt (data.drop p) ft f), by rw [hs.1]⟩
            · simp at hs
          have hstay : ∀ k j q r, parseIter data k (p, j) = some (q, r) → q = p := by
            intro k
            induction k with
            | zero => intro j q r h; simp only [parseIter, Option.some.injEq, Prod.mk.injEq] at h; exact h.1.symm
            | succ k ihk =>
              intro j q r h
              obtain ⟨j', hj'⟩ := hrep j
              simp only [parseIter, hj'] at h
              exact ihk j' q r h
          have hq := hstay n i pos' idx' h1
          subst hq
          obtain ⟨j', hj'⟩ := hrep idx'
          rw [hj'] at h2
          simp at h2
        · rw [if_neg hp]; exact this

/-- The parser never panics. -/
theorem parseLoop_ne_panic (pos : Nat) (rest : Bytes) (idx : List Entry) :
    parseLoop pos rest idx ≠ .panic := by
  generalize hl : rest.length = k
  induction k using Nat.strongRecOn generalizing pos rest idx with
  | _ k ih =>
    rw [parseLoop_eq]
    split
    · split
      · simp
      · split
        · simp
        · split
          · simp
          · apply ih _ _ _ _ _ rfl
            simp [HeaderSize] at *; omega
    · simp

/-- The loop of the code runs for ever exactly when the model says `hang`. -/
theorem parse_hang_iff (data : Bytes) (pos : Nat) (idx : List Entry) :
    parseLoop pos (data.drop pos) idx = .hang ↔
      ∀ n, ∃ st, parseIter data n (pos, idx) = some st := by
  constructor
  · intro h n
    cases hn : parseIter data n (pos, idx) with
    | some st => exact ⟨st, rfl⟩
    | none =>
      exfalso
      have : ∃ k p' i', parseIter data k (pos, idx) = some (p', i') ∧ parseStep data p' i' = none := by
        clear h
        induction n generalizing pos idx with
        | zero => simp [parseIter] at hn
        | succ n ih =>
          simp only [parseIter] at hn
          cases hs : parseStep data pos idx with
          | none => exact ⟨0, pos, idx, rfl, hs⟩
          | some st =>
            rw [hs] at hn
            obtain ⟨k, p', i', h1, h2⟩ := ih st.1 st.2 hn
            exact ⟨k + 1, p', i', by simp [parseIter, hs, h1], h2⟩
      obtain ⟨k, p', i', h1, h2⟩ := this
      have := (parse_ok_iff data pos idx i').mpr ⟨k, p', h1, h2⟩
      rw [h] at this
      simp at this
  · intro h
    cases hr : parseLoop pos (data.drop pos) idx with
    | hang => rfl
    | panic => exact absurd hr (parseLoop_ne_panic _ _ _)
    | ok i' =>
      exfalso
      obtain ⟨n, p', h1, h2⟩ := (parse_ok_iff data pos idx i').mp hr
      obtain ⟨st, hst⟩ := h (n + 1)
      have hsucc : ∀ n st0, parseIter data (n + 1) st0
          = (parseIter data n st0).bind (fun s => parseStep data s.1 s.2) := by
        intro n
        induction n with
        | zero => intro st0; simp only [parseIter, Option.bind_some]; cases parseStep data st0.1 st0.2 <;> rfl
        | succ n ih =>
          intro st0
          rw [parseIter]
          conv => rhs; rw [parseIter]
          cases hs : parseStep data st0.1 st0.2 with
          | none => rfl
          | some s => simp only; exact ih s
      rw [hsucc, h1] at hst
      simp [h2] at hst

end Claw
