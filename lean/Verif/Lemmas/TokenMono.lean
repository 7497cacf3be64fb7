import Verif.Lemmas.Token

/-!
# More turns do not change what Ingest gives
-/

namespace Claw.Tok

open Claw.Idl (FT Out)

theorem skipStructs_mono : ∀ (n : Nat) (ts : List Token), skipStructs n ts ≠ .panic →
    skipStructs (n + 1) ts = skipStructs n ts := by
  intro n
  induction n with
  | zero => intro ts h; cases ts with
    | nil => simp [skipStructs]
    | cons t ts => simp [skipStructs] at h
  | succ n ih =>
    intro ts h
    cases ts with
    | nil => simp [skipStructs]
    | cons t ts =>
      rw [skipStructs] at h
      rw [skipStructs, skipStructs]
      split
      · rfl
      · rename_i hk
        rw [if_neg hk] at h
        split
        · rename_i he; rw [he] at h; exact ih _ h
        · rfl
        · rfl

theorem skipMaps_mono : ∀ (n : Nat),
    (∀ vt ts, skipMap n vt ts ≠ .panic → skipMap (n + 1) vt ts = skipMap n vt ts) ∧
    (∀ vt ts, skipEntries n vt ts ≠ .panic → skipEntries (n + 1) vt ts = skipEntries n vt ts) := by
  intro n
  induction n with
  | zero => constructor <;> intro vt ts h <;> simp [skipMap, skipEntries] at h
  | succ n ih =>
    constructor
    · intro vt ts h
      cases ts with
      | nil => simp [skipMap]
      | cons t ts =>
        simp only [skipMap] at h ⊢
        split
        · rfl
        · rename_i hk
          rw [if_neg hk] at h
          exact ih.2 _ _ h
    · intro vt ts h
      cases ts with
      | nil => simp [skipEntries]
      | cons t ts =>
        rw [skipEntries] at h
        rw [skipEntries, skipEntries]
        split
        · rfl
        · rename_i hk
          rw [if_neg hk] at h
          split
          · rfl
          · rename_i hk
            rw [if_neg hk] at h
            split
            · rename_i hk
              rw [if_pos hk] at h
              split
              · rename_i he; rw [he] at h; exact ih.2 _ _ h
              · rfl
              · rfl
            · rename_i hk
              rw [if_neg hk] at h
              split
              · rename_i hk
                rw [if_pos hk] at h
                have hm : skipMap n t.valueType ts ≠ .panic := by
                  intro he; rw [he] at h; simp at h
                rw [ih.1 _ _ hm]
                split
                · rename_i he; rw [he] at h; exact ih.2 _ _ h
                · rfl
                · rfl
              · rename_i hk
                rw [if_neg hk] at h
                exact ih.2 _ _ h

theorem skipValue_mono (n : Nat) (tok : Token) (ts : List Token) (h : skipValue n tok ts ≠ .panic) :
    skipValue (n + 1) tok ts = skipValue n tok ts := by
  have h1 : skipListStructs n ts ≠ .panic → skipListStructs (n + 1) ts = skipListStructs n ts := by
    intro h
    cases ts with
    | nil => rfl
    | cons t ts =>
      simp only [skipListStructs] at h ⊢
      split
      · rfl
      · rename_i hk
        rw [if_neg hk] at h
        exact skipStructs_mono _ _ h
  unfold skipValue at h ⊢
  split
  all_goals first
    | rfl
    | skip
  · split
    · rfl
    · rename_i hk hn
      apply h1
      simpa [hk, hn] using h
  · split
    · rfl
    · rename_i hk hn
      apply (skipMaps_mono n).1
      simpa [hk, hn] using h

theorem ingest_mono (env : Env) (ig : Bool) : ∀ (n : Nat),
    (∀ s x ts, ingestFrom env ig n s x ts ≠ .panic →
      ingestFrom env ig (n + 1) s x ts = ingestFrom env ig n s x ts) ∧
    (∀ s x ts, ingestLoop env ig n s x ts ≠ .panic →
      ingestLoop env ig (n + 1) s x ts = ingestLoop env ig n s x ts) ∧
    (∀ ty old tok ts, ingestField env ig n ty old tok ts ≠ .panic →
      ingestField env ig (n + 1) ty old tok ts = ingestField env ig n ty old tok ts) ∧
    (∀ s old ts, ingestItems env ig n s old ts ≠ .panic →
      ingestItems env ig (n + 1) s old ts = ingestItems env ig n s old ts) ∧
    (∀ k v old ts, ingestEntries env ig n k v old ts ≠ .panic →
      ingestEntries env ig (n + 1) k v old ts = ingestEntries env ig n k v old ts) := by
  intro n
  induction n with
  | zero =>
    refine ⟨?_, ?_, ?_, ?_, ?_⟩ <;> intros <;>
      simp_all [ingestFrom, ingestLoop, ingestField, ingestItems, ingestEntries]
  | succ n ih =>
    obtain ⟨ihF, ihL, ihD, ihI, ihE⟩ := ih
    refine ⟨?_, ?_, ?_, ?_, ?_⟩
    · intro s x ts h
      cases ts with
      | nil => simp [ingestFrom]
      | cons t ts =>
        rw [ingestFrom] at h
        rw [ingestFrom, ingestFrom]
        split
        · rfl
        · rename_i hk
          rw [if_neg hk] at h
          exact ihL _ _ _ h
    · intro s x ts h
      cases ts with
      | nil => simp [ingestLoop]
      | cons t ts =>
        rw [ingestLoop] at h
        rw [ingestLoop, ingestLoop]
        cases hk : t.kind <;> simp only [hk] at h ⊢
        cases hi : fieldIdx (env s) t.name <;> simp only [hi] at h ⊢
        · cases ig with
          | false => rfl
          | true =>
            simp only [if_true] at h ⊢
            have hm : skipValue n t ts ≠ .panic := by
              intro he; rw [he] at h; simp at h
            rw [skipValue_mono _ _ _ hm]
            split
            · rename_i he; rw [he] at h; exact ihL _ _ _ h
            · rfl
            · rfl
        · rename_i i
          cases hd : (env s)[i]? <;> simp only [hd] at h ⊢
          rename_i d
          cases ho : x[i]? <;> simp only [ho] at h ⊢
          rename_i old
          have hm : ingestField env ig n d.ty old t ts ≠ .panic := by
            intro he; rw [he] at h; simp at h
          rw [ihD _ _ _ _ hm]
          split
          · rename_i he; rw [he] at h; exact ihL _ _ _ h
          · rfl
          · rfl
    · intro ty old tok ts h
      cases ty <;> simp only [ingestField] at h ⊢
      case struct s =>
        split
        · rfl
        · rename_i hn
          rw [if_neg hn] at h
          have hm : ingestFrom env ig n s (fresh env s) ts ≠ .panic := by
            intro he; rw [he] at h; simp at h
          rw [ihF _ _ _ hm]
      case listStruct s =>
        split
        · rfl
        · rename_i hn
          rw [if_neg hn] at h
          cases ts with
          | nil => rfl
          | cons t ts =>
            simp only at h ⊢
            split
            · rfl
            · rename_i hk
              rw [if_neg hk] at h
              exact ihI _ _ _ h
      case map k v =>
        split
        · rfl
        · rename_i hn
          rw [if_neg hn] at h
          cases ts with
          | nil => rfl
          | cons t ts =>
            simp only at h ⊢
            split
            · rfl
            · rename_i hk
              rw [if_neg hk] at h
              exact ihE _ _ _ _ h
    · intro s old ts h
      cases ts with
      | nil => simp [ingestItems]
      | cons t ts =>
        rw [ingestItems] at h
        rw [ingestItems, ingestItems]
        split
        · rfl
        · rename_i hk
          rw [if_neg hk] at h
          have hm : ingestFrom env ig n s (fresh env s) (t :: ts) ≠ .panic := by
            intro he; rw [he] at h; simp at h
          rw [ihF _ _ _ hm]
          split
          · rename_i he; rw [he] at h; exact ihI _ _ _ h
          · rfl
          · rfl
    · intro k v old ts h
      cases ts with
      | nil => simp [ingestEntries]
      | cons t ts =>
        by_cases hk : t.kind = .mapEnd
        · simp only [ingestEntries, if_pos hk]
        · by_cases hk' : t.kind ≠ .mapEntry
          · simp only [ingestEntries, if_neg hk, if_pos hk']
          · cases v <;> simp only [ingestEntries, if_neg hk, if_neg hk'] at h ⊢
            case struct s =>
              have hm : ingestFrom env ig n s (fresh env s) ts ≠ .panic := by
                intro he; rw [he] at h; simp at h
              rw [ihF _ _ _ hm]
              split
              · rename_i he; rw [he] at h; exact ihE _ _ _ _ h
              · rfl
              · rfl
            case listAny =>
              split
              · rename_i he; rw [he] at h; exact ihE _ _ _ _ h
              · rfl
              · rfl
            all_goals exact ihE _ _ _ _ h

theorem ingestFrom_mono {env : Env} {ig : Bool} {n m s : Nat} {x : List Val} {ts : List Token}
    (h : ingestFrom env ig n s x ts ≠ .panic) (hm : n ≤ m) :
    ingestFrom env ig m s x ts = ingestFrom env ig n s x ts := by
  induction hm with
  | refl => rfl
  | step _ ih => rw [(ingest_mono env ig _).1 _ _ _ (by rw [ih]; exact h), ih]

/-- What holds for all large numbers of turns holds for Ingest. -/
theorem ingest_of_large {env : Env} {ig : Bool} {s : Nat} {x : List Val} {ts : List Token}
    {r : Out (List Val × List Token)} (h : ∃ N, ∀ n, N ≤ n → ingestFrom env ig n s x ts = r) :
    ingestFrom env ig (turns ts) s x ts = r := by
  obtain ⟨N, h⟩ := h
  rw [← h (max N (turns ts)) (Nat.le_max_left _ _)]
  exact (ingestFrom_mono (ingestFrom_np env ig s x ts) (Nat.le_max_right _ _)).symm

end Claw.Tok
