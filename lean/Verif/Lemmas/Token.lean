import Verif.Spec.Token

/-!
# Lemmas about token streams: patterns, turns, skipping
-/

namespace Claw.Tok

open Claw.Idl (FT Out)

/-! ### Patterns -/

theorem trunc_sext {w : Nat} (h : w ≤ 64) (v : BitVec w) : (v.signExtend 64).setWidth w = v := by
  ext i hi
  simp [BitVec.getElem_setWidth, BitVec.getLsbD_signExtend, hi]
  intro h'; omega

theorem int8_back (v : Int8) : v.toInt64.toUInt64.toUInt8.toInt8 = v := by
  apply Int8.toBitVec_inj.1
  simp [Int8.toInt64, trunc_sext]

theorem int16_back (v : Int16) : v.toInt64.toUInt64.toUInt16.toInt16 = v := by
  apply Int16.toBitVec_inj.1
  simp [Int16.toInt64, trunc_sext]

theorem int32_back (v : Int32) : v.toInt64.toUInt64.toUInt32.toInt32 = v := by
  apply Int32.toBitVec_inj.1
  simp [Int32.toInt64, trunc_sext]

theorem norm_holds {t : FT} {d : UInt64} (h : Holds t d) : norm t d = d := by
  cases t <;> simp only [Holds] at h <;> simp only [norm]
  case bool => rcases h with h | h <;> subst h <;> decide
  case int8 => obtain ⟨v, rfl⟩ := h; rw [int8_back]
  case int16 => obtain ⟨v, rfl⟩ := h; rw [int16_back]
  case int32 => obtain ⟨v, rfl⟩ := h; rw [int32_back]
  all_goals (obtain ⟨v, rfl⟩ := h; simp)

theorem holds_norm {t : FT} (h : ∃ d, Holds t d) (d : UInt64) : Holds t (norm t d) := by
  cases t <;> simp only [Holds] at h <;> simp only [norm, Holds]
  case bool => by_cases hd : d = 0 <;> simp [hd]
  all_goals first
    | exact ⟨_, rfl⟩
    | (obtain ⟨_, h⟩ := h; exact h.elim)

/-! ### Turns -/

theorem skipDepth_np (ts : List Token) : ∀ d, skipDepth d ts ≠ .panic := by
  induction ts with
  | nil => intro d; simp [skipDepth]
  | cons t ts ih =>
    intro d
    unfold skipDepth
    split
    · exact ih _
    · split
      · simp
      · exact ih _
    · exact ih _

theorem skipDepth_len {ts r : List Token} : ∀ {d}, skipDepth d ts = .ok r → r.length < ts.length := by
  induction ts with
  | nil => intro d h; simp [skipDepth] at h
  | cons t ts ih =>
    intro d h
    unfold skipDepth at h
    split at h
    · have := ih h; simp; omega
    · split at h
      · simp at h; simp [h]
      · have := ih h; simp; omega
    · have := ih h; simp; omega

theorem skipStruct_np (ts : List Token) : skipStruct ts ≠ .panic := by
  cases ts with
  | nil => simp [skipStruct]
  | cons t ts =>
    simp only [skipStruct]; split
    · simp
    · exact skipDepth_np _ _

theorem skipStruct_len {ts r : List Token} (h : skipStruct ts = .ok r) : r.length < ts.length := by
  cases ts with
  | nil => simp [skipStruct] at h
  | cons t ts =>
    simp only [skipStruct] at h; split at h
    · simp at h
    · have := skipDepth_len h; simp; omega

theorem skipList_np (ts : List Token) : skipList ts ≠ .panic := by
  have hl : ∀ ts, skipToListEnd ts ≠ .panic := by
    intro ts
    induction ts with
    | nil => simp [skipToListEnd]
    | cons t ts ih => unfold skipToListEnd; split <;> simp [ih]
  cases ts with
  | nil => simp [skipList]
  | cons t ts => simp only [skipList]; split <;> simp [hl]

theorem skipList_len {ts r : List Token} (h : skipList ts = .ok r) : r.length < ts.length := by
  have hl : ∀ ts, skipToListEnd ts = .ok r → r.length < ts.length := by
    intro ts
    induction ts with
    | nil => simp [skipToListEnd]
    | cons t ts ih =>
      intro h
      unfold skipToListEnd at h
      split at h
      · simp at h; simp [h]
      · have := ih h; simp; omega
  cases ts with
  | nil => simp [skipList] at h
  | cons t ts =>
    simp only [skipList] at h
    split at h
    · simp at h
    · have := hl _ h; simp; omega

theorem listItems_np (ts : List Token) : listItems ts ≠ .panic := by
  induction ts with
  | nil => simp [listItems]
  | cons t ts ih =>
    unfold listItems
    split
    · simp
    · split <;> simp_all

theorem listItems_len {ts : List Token} : ∀ {i r}, listItems ts = .ok (i, r) → r.length < ts.length := by
  induction ts with
  | nil => intro i r h; simp [listItems] at h
  | cons t ts ih =>
    intro i r h
    unfold listItems at h
    split at h
    · simp at h; simp [h.2]
    · split at h
      · rename_i i' r' he
        simp at h
        have := ih he
        obtain ⟨_, rfl⟩ := h
        simp; omega
      · simp at h
      · simp at h

theorem readList_np (ts : List Token) : readList ts ≠ .panic := by
  cases ts with
  | nil => simp [readList]
  | cons t ts => simp only [readList]; split <;> simp [listItems_np]

theorem readList_len {ts i r : List Token} (h : readList ts = .ok (i, r)) : r.length < ts.length := by
  cases ts with
  | nil => simp [readList] at h
  | cons t ts =>
    simp only [readList] at h
    split at h
    · simp at h
    · have := listItems_len h; simp; omega

theorem skipStructs_np : ∀ (n : Nat) (ts : List Token), ts.length ≤ n → skipStructs n ts ≠ .panic := by
  intro n
  induction n with
  | zero => intro ts h; cases ts with
    | nil => simp [skipStructs]
    | cons t ts => simp at h
  | succ n ih =>
    intro ts h
    cases ts with
    | nil => simp [skipStructs]
    | cons t ts =>
      unfold skipStructs
      split
      · simp
      · split
        · rename_i he
          have := skipStruct_len he
          apply ih; simp at h this; omega
        · simp
        · rename_i he; exact absurd he (skipStruct_np _)

theorem skipStructs_len : ∀ (n : Nat) (ts r : List Token), skipStructs n ts = .ok r →
    r.length < ts.length := by
  intro n
  induction n with
  | zero => intro ts r h; cases ts <;> simp [skipStructs] at h
  | succ n ih =>
    intro ts r h
    cases ts with
    | nil => simp [skipStructs] at h
    | cons t ts =>
      unfold skipStructs at h
      split at h
      · simp at h; simp [h]
      · split at h
        · rename_i he
          have := skipStruct_len he
          have := ih _ _ h
          omega
        · simp at h
        · simp at h

theorem skipMaps_np : ∀ (n : Nat), (∀ vt ts, ts.length < n → skipMap n vt ts ≠ .panic ∧
      ∀ r, skipMap n vt ts = .ok r → r.length < ts.length) ∧
    (∀ vt ts, ts.length < n → skipEntries n vt ts ≠ .panic ∧
      ∀ r, skipEntries n vt ts = .ok r → r.length < ts.length) := by
  intro n
  induction n with
  | zero => constructor <;> intro vt ts h <;> omega
  | succ n ih =>
    constructor
    · intro vt ts h
      cases ts with
      | nil => simp [skipMap]
      | cons t ts =>
        simp only [skipMap]
        split
        · simp
        · have := ih.2 vt ts (by simp at h; omega)
          refine ⟨this.1, fun r hr => ?_⟩
          have := this.2 r hr
          simp; omega
    · intro vt ts h
      cases ts with
      | nil => simp [skipEntries]
      | cons t ts =>
        have hts : ts.length < n := by simp at h; omega
        simp only [skipEntries]
        split
        · simp
        · split
          · simp
          · split
            · split
              · rename_i he
                have hl := skipStruct_len he
                have := ih.2 vt _ (show _ < n from Nat.lt_trans hl hts)
                refine ⟨this.1, fun r hr => ?_⟩
                have := this.2 r hr
                simp; omega
              · simp
              · rename_i he; exact absurd he (skipStruct_np _)
            · split
              · split
                · rename_i he
                  have hl := (ih.1 _ _ hts).2 _ he
                  have := ih.2 vt _ (show _ < n from Nat.lt_trans hl hts)
                  refine ⟨this.1, fun r hr => ?_⟩
                  have := this.2 r hr
                  simp; omega
                · simp
                · rename_i he; exact absurd he (ih.1 _ _ hts).1
              · have := ih.2 vt ts hts
                refine ⟨this.1, fun r hr => ?_⟩
                have := this.2 r hr
                simp; omega

theorem skipValue_np {n : Nat} (tok : Token) {ts : List Token} (h : ts.length < n) :
    skipValue n tok ts ≠ .panic ∧ ∀ r, skipValue n tok ts = .ok r → r.length ≤ ts.length := by
  have hs : ∀ r, skipListStructs n ts = .ok r → r.length ≤ ts.length := by
    intro r hr
    cases ts with
    | nil => simp [skipListStructs] at hr
    | cons t ts =>
      simp only [skipListStructs] at hr
      split at hr
      · simp at hr
      · have := skipStructs_len _ _ _ hr; simp; omega
  have hs' : skipListStructs n ts ≠ .panic := by
    cases ts with
    | nil => simp [skipListStructs]
    | cons t ts =>
      simp only [skipListStructs]
      split
      · simp
      · exact skipStructs_np _ _ (by simp at h; omega)
  have hm := (skipMaps_np n).1 tok.valueType ts h
  have hm' : ∀ r, skipMap n tok.valueType ts = .ok r → r.length ≤ ts.length :=
    fun r hr => Nat.le_of_lt (hm.2 r hr)
  have h1 : ∀ r, skipStruct ts = .ok r → r.length ≤ ts.length :=
    fun r hr => Nat.le_of_lt (skipStruct_len hr)
  have h2 : ∀ r, skipList ts = .ok r → r.length ≤ ts.length :=
    fun r hr => Nat.le_of_lt (skipList_len hr)
  have key : ∀ (b : Bool) (o : Out (List Token)), o ≠ .panic → (∀ r, o = .ok r → r.length ≤ ts.length) →
      (if b then .ok ts else o) ≠ .panic ∧
      ∀ r, (if b then .ok ts else o) = .ok r → r.length ≤ ts.length := by
    intro b o ho hr
    cases b
    · exact ⟨ho, hr⟩
    · simp only [if_true]
      exact ⟨by simp, fun r h => by simp at h; simp [h]⟩
  unfold skipValue
  split
  all_goals first
    | exact key _ _ (skipStruct_np _) h1
    | exact key _ _ hs' hs
    | exact key _ _ (skipList_np _) h2
    | exact key _ _ hm.1 hm'
    | exact ⟨by simp, fun r h => by simp at h; simp [h]⟩

/-- The bound on the turns is never reached. -/
theorem turns_ok (env : Env) (ig : Bool) : ∀ (n : Nat),
    (∀ s x ts, 3 * ts.length + 1 ≤ n → ingestFrom env ig n s x ts ≠ .panic ∧
      ∀ r, ingestFrom env ig n s x ts = .ok r → r.2.length < ts.length) ∧
    (∀ s x ts, 3 * ts.length + 1 ≤ n → ingestLoop env ig n s x ts ≠ .panic ∧
      ∀ r, ingestLoop env ig n s x ts = .ok r → r.2.length < ts.length) ∧
    (∀ ty old tok ts, 3 * ts.length + 2 ≤ n → ingestField env ig n ty old tok ts ≠ .panic ∧
      ∀ r, ingestField env ig n ty old tok ts = .ok r → r.2.length ≤ ts.length) ∧
    (∀ s old ts, 3 * ts.length + 2 ≤ n → ingestItems env ig n s old ts ≠ .panic ∧
      ∀ r, ingestItems env ig n s old ts = .ok r → r.2.length < ts.length) ∧
    (∀ k v old ts, 3 * ts.length + 2 ≤ n → ingestEntries env ig n k v old ts ≠ .panic ∧
      ∀ r, ingestEntries env ig n k v old ts = .ok r → r.2.length < ts.length) := by
  intro n
  induction n with
  | zero => refine ⟨?_, ?_, ?_, ?_, ?_⟩ <;> intros <;> omega
  | succ n ih =>
    obtain ⟨ihF, ihL, ihD, ihI, ihE⟩ := ih
    refine ⟨?_, ?_, ?_, ?_, ?_⟩
    · intro s x ts h
      cases ts with
      | nil => simp [ingestFrom]
      | cons t ts =>
        simp only [ingestFrom]
        simp only [List.length_cons] at h
        split
        · simp
        · have := ihL s x ts (by omega)
          refine ⟨this.1, fun r hr => ?_⟩
          have := this.2 r hr
          simp only [List.length_cons]; omega
    · intro s x ts h
      cases ts with
      | nil => simp [ingestLoop]
      | cons t ts =>
        simp only [ingestLoop]
        simp only [List.length_cons] at h
        have hG : ∀ x ts', ts'.length ≤ ts.length → ingestLoop env ig n s x ts' ≠ .panic ∧
          ∀ r, ingestLoop env ig n s x ts' = .ok r → r.2.length < (t :: ts).length := by
          intro x ts' hl
          have := ihL s x ts' (by omega)
          exact ⟨this.1, fun r hr => by have := this.2 r hr; simp; omega⟩
        split
        · simp
        · split
          · split
            · rename_i d old _ _
              have hd := ihD d.ty old t ts (by omega)
              split
              · rename_i he
                exact hG _ _ (hd.2 _ he)
              · simp
              · rename_i he; exact absurd he hd.1
            · simp
          · split
            · have hd := skipValue_np (n := n) t (ts := ts) (by omega)
              split
              · rename_i he
                exact hG _ _ (hd.2 _ he)
              · simp
              · rename_i he; exact absurd he hd.1
            · simp
        · simp
    · intro ty old tok ts h
      have hF := fun s => ihF s (fresh env s) ts (by omega)
      have hR := readList_np ts
      cases ty <;> simp only [ingestField]
      case num | str | bytes => simp
      case struct s =>
        split
        · simp
        · split
          · rename_i he
            have := (hF s).2 _ he
            simp at this; simp; omega
          · simp
          · rename_i he; exact absurd he (hF s).1
      case listNum | listStr | listBytes =>
        split
        · simp
        · split
          · rename_i he
            have := readList_len he
            simp; omega
          · simp
          · rename_i he; exact absurd he hR
      case listStruct s =>
        split
        · simp
        · split
          · simp
          · rename_i t ts'
            simp only [List.length_cons] at h
            split
            · simp
            · have := ihI s old ts' (by omega)
              refine ⟨this.1, fun r hr => ?_⟩
              have := this.2 r hr
              simp only [List.length_cons]; omega
      case map k v =>
        split
        · simp
        · split
          · simp
          · rename_i t ts'
            simp only [List.length_cons] at h
            split
            · simp
            · have := ihE k v old ts' (by omega)
              refine ⟨this.1, fun r hr => ?_⟩
              have := this.2 r hr
              simp only [List.length_cons]; omega
      case any =>
        split
        · simp
        · unfold setAnyRaw
          split
          · rename_i he; simp
          · simp
          · rename_i he
            split at he
            · simp at he
            · split at he <;> simp at he
      case listAny =>
        split
        · simp
        · split
          · rename_i he
            have := readList_len he
            split
            · simp; omega
            · simp
            · rename_i he; unfold setListAnyRaw at he; split at he <;> simp at he
          · simp
          · rename_i he; exact absurd he hR
    · intro s old ts h
      cases ts with
      | nil => simp [ingestItems]
      | cons t ts =>
        simp only [ingestItems]
        have hF := ihF s (fresh env s) (t :: ts) (by omega)
        have hG : ∀ old ts', ts'.length < (t :: ts).length → ingestItems env ig n s old ts' ≠ .panic ∧
          ∀ r, ingestItems env ig n s old ts' = .ok r → r.2.length < (t :: ts).length := by
          intro old ts' hl
          have := ihI s old ts' (by omega)
          exact ⟨this.1, fun r hr => by have := this.2 r hr; omega⟩
        split
        · simp
        · split
          · rename_i he
            exact hG _ _ (hF.2 _ he)
          · simp
          · rename_i he; exact absurd he hF.1
    · intro k v old ts h
      cases ts with
      | nil => simp [ingestEntries]
      | cons t ts =>
        simp only [ingestEntries]
        simp only [List.length_cons] at h
        have hE : ∀ old, _ := fun old => ihE k v old ts (by omega)
        have hE' : ∀ old, ingestEntries env ig n k v old ts ≠ .panic ∧
          ∀ r, ingestEntries env ig n k v old ts = .ok r → r.2.length < ts.length + 1 :=
          fun old => ⟨(hE old).1, fun r hr => Nat.lt_succ_of_lt ((hE old).2 r hr)⟩
        have hG : ∀ old ts', ts'.length ≤ ts.length → ingestEntries env ig n k v old ts' ≠ .panic ∧
          ∀ r, ingestEntries env ig n k v old ts' = .ok r → r.2.length < ts.length + 1 := by
          intro old ts' hl
          have := ihE k v old ts' (by omega)
          exact ⟨this.1, fun r hr => by have := this.2 r hr; omega⟩
        split
        · simp
        · split
          · simp
          · split
            · exact hE' _
            · exact hE' _
            · exact hE' _
            · rename_i s
              have hF := ihF s (fresh env s) ts (by omega)
              split
              · rename_i he
                exact hG _ _ (Nat.le_of_lt (hF.2 _ he))
              · simp
              · rename_i he; exact absurd he hF.1
            · split
              · rename_i he
                exact hG _ _ (Nat.le_of_lt (readList_len he))
              · simp
              · rename_i he; exact absurd he (readList_np _)
            · exact hE' _

theorem ingestFrom_np (env : Env) (ig : Bool) (s : Nat) (x : List Val) (ts : List Token) :
    ingestFrom env ig (turns ts) s x ts ≠ .panic :=
  ((turns_ok env ig _).1 s x ts (by unfold turns; omega)).1

/-- Ingest always comes to an end within the turns of the model. -/
theorem ingest_total (env : Env) (ig : Bool) (s : Nat) (x : List Val) (ts : List Token) :
    ingest env ig s x ts ≠ .panic := by
  unfold ingest
  split
  · simp
  · simp
  · rename_i he; exact absurd he (ingestFrom_np _ _ _ _ _)

end Claw.Tok
