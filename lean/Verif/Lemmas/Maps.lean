import Verif.Spec.Maps

/-!
# The map object: comparison laws and binary search
-/

namespace Claw

/-- What the search needs of a comparison. -/
structure CmpLaws {K : Type} (cmp : K → K → Int) : Prop where
  refl : ∀ a, cmp a a = 0
  symm : ∀ a b, cmp a b = 0 → cmp b a = 0
  swap : ∀ a b, cmp a b < 0 ↔ 0 < cmp b a
  trans : ∀ a b c, cmp a b < 0 → cmp b c < 0 → cmp a c < 0
  lt_eq : ∀ a b c, cmp a b < 0 → cmp b c = 0 → cmp a c < 0
  eq_lt : ∀ a b c, cmp a b = 0 → cmp b c < 0 → cmp a c < 0
  eq_eq : ∀ a b c, cmp a b = 0 → cmp b c = 0 → cmp a c = 0

theorem goCompare_laws {K : Type} (nan : K → Bool) (val : K → Int) :
    CmpLaws fun a b => goCompare (nan a) (nan b) (val a) (val b) := by
  constructor <;> (intros; simp only [goCompare] at *; repeat' split at *) <;> first | omega | simp_all

theorem goCompareStr_refl (a : Bytes) : goCompareStr a a = 0 := by
  induction a with
  | nil => rfl
  | cons x a ih => simp [goCompareStr, ih]

theorem goCompareStr_eq (a b : Bytes) : goCompareStr a b = 0 ↔ a = b := by
  constructor
  · induction a generalizing b with
    | nil => cases b <;> simp [goCompareStr]
    | cons x a ih =>
      cases b with
      | nil => simp [goCompareStr]
      | cons y b =>
        simp only [goCompareStr]
        split
        · intro h; omega
        · split
          · intro h; omega
          · intro h
            rename_i h1 h2
            have hxy : x = y := UInt8.le_antisymm (UInt8.not_lt.mp h2) (UInt8.not_lt.mp h1)
            rw [hxy, ih b h]
  · rintro rfl; exact goCompareStr_refl a

theorem goCompareStr_swap (a b : Bytes) : goCompareStr a b < 0 ↔ 0 < goCompareStr b a := by
  induction a generalizing b with
  | nil => cases b <;> simp [goCompareStr]
  | cons x a ih =>
    cases b with
    | nil => simp [goCompareStr]
    | cons y b =>
      simp only [goCompareStr]
      by_cases h1 : x < y
      · have : ¬ y < x := UInt8.not_lt.mpr (UInt8.le_of_lt h1)
        simp [h1, this]
      · by_cases h2 : y < x
        · simp [h1, h2]
        · simp [h1, h2, ih]

theorem goCompareStr_trans (a b c : Bytes) : goCompareStr a b < 0 → goCompareStr b c < 0 →
    goCompareStr a c < 0 := by
  induction a generalizing b c with
  | nil =>
    cases b with
    | nil => simp [goCompareStr]
    | cons y b => cases c <;> simp [goCompareStr]
  | cons x a ih =>
    cases b with
    | nil => simp [goCompareStr]
    | cons y b =>
      cases c with
      | nil => simp [goCompareStr]
      | cons z c =>
        simp only [goCompareStr]
        intro h1 h2
        by_cases hxy : x < y
        · by_cases hyz : y < z
          · simp [UInt8.lt_trans hxy hyz]
          · by_cases hzy : z < y
            · simp [hyz, hzy] at h2
            · have : y = z := UInt8.le_antisymm (UInt8.not_lt.mp hzy) (UInt8.not_lt.mp hyz)
              subst this; simp [hxy]
        · by_cases hyx : y < x
          · simp [hxy, hyx] at h1
          · have : x = y := UInt8.le_antisymm (UInt8.not_lt.mp hyx) (UInt8.not_lt.mp hxy)
            subst this
            by_cases hyz : x < z
            · simp [hyz]
            · by_cases hzy : z < x
              · simp [hyz, hzy] at h2
              · simp only [hxy, hyz, hzy, if_false] at h1 h2 ⊢
                exact ih b c h1 h2

theorem goCompareStr_laws : CmpLaws goCompareStr where
  refl := goCompareStr_refl
  symm a b h := by rw [goCompareStr_eq] at *; exact h.symm
  swap := goCompareStr_swap
  trans := goCompareStr_trans
  lt_eq a b c h1 h2 := by rw [goCompareStr_eq] at h2; subst h2; exact h1
  eq_lt a b c h1 h2 := by rw [goCompareStr_eq] at h1; subst h1; exact h2
  eq_eq a b c h1 h2 := by rw [goCompareStr_eq] at *; exact h1.trans h2

theorem KTy.laws (t : KTy) : CmpLaws t.compare := by
  cases t with
  | bool => constructor <;> simp only [KTy.compare] <;> decide
  | str => exact goCompareStr_laws
  | num k =>
    cases k
    case i8 => exact goCompare_laws (fun _ => false) Int8.toInt
    case i16 => exact goCompare_laws (fun _ => false) Int16.toInt
    case i32 => exact goCompare_laws (fun _ => false) Int32.toInt
    case i64 => exact goCompare_laws (fun _ => false) Int64.toInt
    case u8 => exact goCompare_laws (fun _ => false) fun x : UInt8 => (x.toNat : Int)
    case u16 => exact goCompare_laws (fun _ => false) fun x : UInt16 => (x.toNat : Int)
    case u32 => exact goCompare_laws (fun _ => false) fun x : UInt32 => (x.toNat : Int)
    case u64 => exact goCompare_laws (fun _ => false) fun x : UInt64 => (x.toNat : Int)
    case f32 => exact goCompare_laws F32.isNaN F32.value
    case f64 => exact goCompare_laws F64.isNaN F64.value

/-! ### IEEE order -/

theorem ieeeMag_lt {p : Nat} {e m e' m' : Nat} (hm : m < 2 ^ p) (hm' : m' < 2 ^ p) :
    ieeeMag p e m < ieeeMag p e' m' ↔ e < e' ∨ (e = e' ∧ m < m') := by
  have key : ∀ {e m e' m' : Nat}, m < 2 ^ p → e < e' → ieeeMag p e m < ieeeMag p e' m' := by
    intro e m e' m' hm he
    simp only [ieeeMag]
    have h0 : e' ≠ 0 := by omega
    simp only [h0, if_false]
    obtain ⟨d, rfl⟩ : ∃ d, e' = e + 1 + d := ⟨e' - e - 1, by omega⟩
    split
    · subst e
      calc m < 2 ^ p := hm
        _ ≤ 2 ^ p + m' := by omega
        _ ≤ (2 ^ p + m') * 2 ^ (0 + 1 + d - 1) := Nat.le_mul_of_pos_right _ (Nat.two_pow_pos _)
    · have e1 : e + 1 + d - 1 = e + d := by omega
      rw [e1]
      obtain ⟨f, rfl⟩ : ∃ f, e = f + 1 := ⟨e - 1, by omega⟩
      have e2 : f + 1 - 1 = f := by omega
      rw [e2, show f + 1 + d = f + (1 + d) by omega, Nat.pow_add, Nat.mul_comm (2 ^ f), ← Nat.mul_assoc]
      apply Nat.mul_lt_mul_of_pos_right _ (Nat.two_pow_pos _)
      have h2 : 2 ≤ 2 ^ (1 + d) := by
        rw [Nat.pow_add]; have := Nat.two_pow_pos d; omega
      calc 2 ^ p + m < 2 ^ p * 2 := by omega
        _ ≤ (2 ^ p + m') * 2 := by omega
        _ ≤ (2 ^ p + m') * 2 ^ (1 + d) := Nat.mul_le_mul_left _ h2
  by_cases he : e < e'
  · simp [key hm he, he]
  · by_cases he' : e' < e
    · have := key (m' := m) hm' he'
      constructor
      · intro h; omega
      · intro h; omega
    · have : e = e' := by omega
      subst this
      simp only [Nat.lt_irrefl, true_and, false_or]
      simp only [ieeeMag]
      split
      · rfl
      · constructor
        · intro h
          have := Nat.lt_of_mul_lt_mul_right h
          omega
        · intro h
          exact Nat.mul_lt_mul_of_pos_right (by omega) (Nat.two_pow_pos _)

theorem ieeeMag_inj {p : Nat} {e m e' m' : Nat} (hm : m < 2 ^ p) (hm' : m' < 2 ^ p)
    (h : ieeeMag p e m = ieeeMag p e' m') : e = e' ∧ m = m' := by
  have h1 := ieeeMag_lt (e := e) (e' := e') hm hm'
  have h2 := ieeeMag_lt (e := e') (e' := e) hm' hm
  rw [h] at h1 h2
  simp only [Nat.lt_irrefl, false_iff] at h1 h2
  omega

theorem ieeeMag_zero {p e m : Nat} (h : ieeeMag p e m = 0) : e = 0 ∧ m = 0 := by
  simp only [ieeeMag] at h
  split at h
  · exact ⟨by assumption, h⟩
  · have h1 := Nat.two_pow_pos p
    have h2 := Nat.two_pow_pos (e - 1)
    have := Nat.mul_pos (show 0 < 2 ^ p + m by omega) h2
    omega

theorem F32.value_eq {a b : F32} : F32.value a = F32.value b ↔
    a = b ∨ (F32.isZero a = true ∧ F32.isZero b = true) := by
  obtain ⟨a⟩ := a
  obtain ⟨b⟩ := b
  have ha := a.toNat_lt
  have hb := b.toNat_lt
  have hma : a.toNat % 2 ^ 23 < 2 ^ 23 := Nat.mod_lt _ (by decide)
  have hmb : b.toNat % 2 ^ 23 < 2 ^ 23 := Nat.mod_lt _ (by decide)
  have z : ∀ x : UInt32, F32.isZero ⟨x⟩ = true ↔ x.toNat % 2 ^ 31 = 0 := by
    intro x
    have hx := x.toNat_lt
    simp only [F32.isZero, Bool.or_eq_true, beq_iff_eq, ← UInt32.toNat_inj]
    simp +decide
    omega
  rw [z, z]
  have inj : (F32.mk a = F32.mk b) ↔ a.toNat = b.toNat := by
    rw [UInt32.toNat_inj]; simp
  rw [inj]
  simp only [F32.value]
  constructor
  · intro h
    have ia := @ieeeMag_inj 23 (a.toNat % 2 ^ 31 / 2 ^ 23) (a.toNat % 2 ^ 23)
      (b.toNat % 2 ^ 31 / 2 ^ 23) (b.toNat % 2 ^ 23) hma hmb
    have za := @ieeeMag_zero 23 (a.toNat % 2 ^ 31 / 2 ^ 23) (a.toNat % 2 ^ 23)
    have zb := @ieeeMag_zero 23 (b.toNat % 2 ^ 31 / 2 ^ 23) (b.toNat % 2 ^ 23)
    generalize ieeeMag 23 (a.toNat % 2 ^ 31 / 2 ^ 23) (a.toNat % 2 ^ 23) = ma at *
    generalize ieeeMag 23 (b.toNat % 2 ^ 31 / 2 ^ 23) (b.toNat % 2 ^ 23) = mb at *
    split at h <;> split at h
    · have := ia (by omega); omega
    · have := za (by omega); have := zb (by omega); omega
    · have := za (by omega); have := zb (by omega); omega
    · have := ia (by omega); omega
  · rintro (h | ⟨h1, h2⟩)
    · simp [h]
    · have e1 : a.toNat % 2 ^ 23 = 0 := by omega
      have e2 : b.toNat % 2 ^ 23 = 0 := by omega
      simp [h1, h2, e1, e2, ieeeMag]

theorem F64.value_eq {a b : F64} : F64.value a = F64.value b ↔
    a = b ∨ (F64.isZero a = true ∧ F64.isZero b = true) := by
  obtain ⟨a⟩ := a
  obtain ⟨b⟩ := b
  have ha := a.toNat_lt
  have hb := b.toNat_lt
  have hma : a.toNat % 2 ^ 52 < 2 ^ 52 := Nat.mod_lt _ (by decide)
  have hmb : b.toNat % 2 ^ 52 < 2 ^ 52 := Nat.mod_lt _ (by decide)
  have z : ∀ x : UInt64, F64.isZero ⟨x⟩ = true ↔ x.toNat % 2 ^ 63 = 0 := by
    intro x
    have hx := x.toNat_lt
    simp only [F64.isZero, Bool.or_eq_true, beq_iff_eq, ← UInt64.toNat_inj]
    simp +decide
    omega
  rw [z, z]
  have inj : (F64.mk a = F64.mk b) ↔ a.toNat = b.toNat := by
    rw [UInt64.toNat_inj]; simp
  rw [inj]
  simp only [F64.value]
  constructor
  · intro h
    have ia := @ieeeMag_inj 52 (a.toNat % 2 ^ 63 / 2 ^ 52) (a.toNat % 2 ^ 52)
      (b.toNat % 2 ^ 63 / 2 ^ 52) (b.toNat % 2 ^ 52) hma hmb
    have za := @ieeeMag_zero 52 (a.toNat % 2 ^ 63 / 2 ^ 52) (a.toNat % 2 ^ 52)
    have zb := @ieeeMag_zero 52 (b.toNat % 2 ^ 63 / 2 ^ 52) (b.toNat % 2 ^ 52)
    generalize ieeeMag 52 (a.toNat % 2 ^ 63 / 2 ^ 52) (a.toNat % 2 ^ 52) = ma at *
    generalize ieeeMag 52 (b.toNat % 2 ^ 63 / 2 ^ 52) (b.toNat % 2 ^ 52) = mb at *
    split at h <;> split at h
    · have := ia (by omega); omega
    · have := za (by omega); have := zb (by omega); omega
    · have := za (by omega); have := zb (by omega); omega
    · have := ia (by omega); omega
  · rintro (h | ⟨h1, h2⟩)
    · simp [h]
    · have e1 : a.toNat % 2 ^ 52 = 0 := by omega
      have e2 : b.toNat % 2 ^ 52 = 0 := by omega
      simp [h1, h2, e1, e2, ieeeMag]

/-! ### The comparison decides `Same` and `Before` -/

theorem goCompare_eq (x y : Int) : goCompare false false x y = 0 ↔ x = y := by
  simp only [goCompare, Bool.false_eq_true, if_false]
  repeat' split
  all_goals omega

theorem goCompare_lt (x y : Int) : goCompare false false x y < 0 ↔ x < y := by
  simp only [goCompare, Bool.false_eq_true, if_false]
  repeat' split
  all_goals omega

theorem zero_not_nan32 {x : F32} (h : F32.isZero x = true) : F32.isNaN x = false := by
  obtain ⟨x⟩ := x
  simp only [F32.isZero, Bool.or_eq_true, beq_iff_eq] at h
  rcases h with rfl | rfl <;> decide

theorem zero_not_nan64 {x : F64} (h : F64.isZero x = true) : F64.isNaN x = false := by
  obtain ⟨x⟩ := x
  simp only [F64.isZero, Bool.or_eq_true, beq_iff_eq] at h
  rcases h with rfl | rfl <;> decide

theorem goCompare_nan_eq (a b : Bool) (x y : Int) :
    goCompare a b x y = 0 ↔ (a = true ∧ b = true) ∨ (a = false ∧ b = false ∧ x = y) := by
  cases a <;> cases b <;> simp [goCompare]
  repeat' split
  all_goals omega

theorem goCompare_nan_lt (a b : Bool) (x y : Int) :
    goCompare a b x y < 0 ↔ b = false ∧ (a = true ∨ x < y) := by
  cases a <;> cases b <;> simp [goCompare]
  repeat' split
  all_goals omega

theorem KTy.compare_same (t : KTy) (a b : t.Val) : t.compare a b = 0 ↔ t.Same a b := by
  cases t with
  | bool => revert a b; simp only [KTy.compare, KTy.Same]; decide
  | str => exact goCompareStr_eq a b
  | num k =>
    cases k
    case i8 => simp only [KTy.compare, NTy.compare, KTy.Same, goCompare_eq, Int8.toInt_inj]
    case i16 => simp only [KTy.compare, NTy.compare, KTy.Same, goCompare_eq, Int16.toInt_inj]
    case i32 => simp only [KTy.compare, NTy.compare, KTy.Same, goCompare_eq, Int32.toInt_inj]
    case i64 => simp only [KTy.compare, NTy.compare, KTy.Same, goCompare_eq, Int64.toInt_inj]
    case u8 => simp only [KTy.compare, NTy.compare, KTy.Same, goCompare_eq, Int.natCast_inj, UInt8.toNat_inj]
    case u16 => simp only [KTy.compare, NTy.compare, KTy.Same, goCompare_eq, Int.natCast_inj, UInt16.toNat_inj]
    case u32 => simp only [KTy.compare, NTy.compare, KTy.Same, goCompare_eq, Int.natCast_inj, UInt32.toNat_inj]
    case u64 => simp only [KTy.compare, NTy.compare, KTy.Same, goCompare_eq, Int.natCast_inj, UInt64.toNat_inj]
    case f32 =>
      simp only [KTy.compare, NTy.compare, KTy.Same, goCompare_nan_eq, F32.value_eq]
      constructor
      · rintro (h | ⟨_, _, h | h⟩)
        · exact .inr (.inl h)
        · exact .inl h
        · exact .inr (.inr h)
      · rintro (h | h | h)
        · subst h; cases F32.isNaN a <;> simp
        · exact .inl h
        · exact .inr ⟨zero_not_nan32 h.1, zero_not_nan32 h.2, .inr h⟩
    case f64 =>
      simp only [KTy.compare, NTy.compare, KTy.Same, goCompare_nan_eq, F64.value_eq]
      constructor
      · rintro (h | ⟨_, _, h | h⟩)
        · exact .inr (.inl h)
        · exact .inl h
        · exact .inr (.inr h)
      · rintro (h | h | h)
        · subst h; cases F64.isNaN a <;> simp
        · exact .inl h
        · exact .inr ⟨zero_not_nan64 h.1, zero_not_nan64 h.2, .inr h⟩

theorem goCompareStr_lt (a b : Bytes) : goCompareStr a b < 0 ↔ KTy.Before .str a b := by
  constructor
  · induction a generalizing b with
    | nil =>
      cases b with
      | nil => simp [goCompareStr]
      | cons y ys => intro _; exact ⟨[], .inl ⟨rfl, y, ys, rfl⟩⟩
    | cons x a ih =>
      cases b with
      | nil => simp [goCompareStr]
      | cons y b =>
        simp only [goCompareStr]
        split
        · rename_i h; intro _; exact ⟨[], .inr ⟨x, y, a, b, rfl, rfl, h⟩⟩
        · split
          · intro h; omega
          · intro h
            rename_i h1 h2
            have hxy : x = y := UInt8.le_antisymm (UInt8.not_lt.mp h2) (UInt8.not_lt.mp h1)
            subst hxy
            obtain ⟨p, ⟨rfl, z, zs, hb⟩ | ⟨u, v, us, vs, rfl, hb, huv⟩⟩ := ih b h
            · exact ⟨x :: a, .inl ⟨rfl, z, zs, by rw [hb]; rfl⟩⟩
            · exact ⟨x :: p, .inr ⟨u, v, us, vs, rfl, by rw [hb]; rfl, huv⟩⟩
  · rintro ⟨p, ⟨rfl, z, zs, rfl⟩ | ⟨u, v, us, vs, rfl, rfl, huv⟩⟩
    · induction a with
      | nil => simp [goCompareStr]
      | cons x a ih => simpa [goCompareStr] using ih
    · induction p with
      | nil => simp [goCompareStr, huv]
      | cons x a ih => simpa [goCompareStr] using ih

theorem KTy.compare_before (t : KTy) (a b : t.Val) : t.compare a b < 0 ↔ t.Before a b := by
  cases t with
  | bool => revert a b; simp only [KTy.compare, KTy.Before]; decide
  | str => exact goCompareStr_lt a b
  | num k =>
    cases k <;> simp [KTy.compare, NTy.compare, KTy.Before, goCompare_nan_lt, Int.ofNat_lt]

/-! ### Binary search -/

section
variable {K V : Type} {cmp : K → K → Int}

theorem bsLoop_ok (h : CmpLaws cmp) (x : List K) (k : K) (hs : x.Pairwise fun a b => cmp a b < 0) :
    ∀ (fuel i j : Nat), i ≤ j → j ≤ x.length → j - i ≤ fuel →
      (∀ y ∈ x.take i, cmp y k < 0) → (∀ y ∈ x.drop j, ¬ cmp y k < 0) →
      ∃ p, bsLoop cmp x k fuel i j = some p ∧ p ≤ x.length ∧ (∀ y ∈ x.take p, cmp y k < 0) ∧
        ∀ y ∈ x.drop p, ¬ cmp y k < 0 := by
  intro fuel
  induction fuel with
  | zero =>
    intro i j hij hj hf h1 h2
    have : i = j := by omega
    subst this
    exact ⟨i, by simp [bsLoop], hj, h1, h2⟩
  | succ fuel ih =>
    intro i j hij hj hf h1 h2
    by_cases hlt : i < j
    · simp only [bsLoop, hlt, if_true]
      have hh : (i + j) / 2 < x.length := by omega
      rw [List.getElem?_eq_getElem hh]
      simp only
      have hsplit : x = x.take ((i + j) / 2) ++ x[(i + j) / 2] :: x.drop ((i + j) / 2 + 1) := by
        conv => lhs; rw [← List.take_append_drop ((i + j) / 2) x, List.drop_eq_getElem_cons hh]
      have hs' := hs
      rw [hsplit, List.pairwise_append] at hs'
      obtain ⟨_, hp2, hp3⟩ := hs'
      rw [List.pairwise_cons] at hp2
      by_cases hc : cmp x[(i + j) / 2] k < 0
      · rw [if_pos hc]
        apply ih _ _ (by omega) hj (by omega) _ h2
        intro y hy
        rw [List.take_add_one, List.getElem?_eq_getElem hh] at hy
        simp only [Option.toList_some, List.mem_append, List.mem_singleton] at hy
        rcases hy with hy | rfl
        · exact h.trans _ _ _ (hp3 y hy _ (List.mem_cons_self ..)) hc
        · exact hc
      · rw [if_neg hc]
        apply ih _ _ (by omega) (by omega) (by omega) h1
        intro y hy
        rw [List.drop_eq_getElem_cons hh] at hy
        rcases List.mem_cons.mp hy with rfl | hy
        · exact hc
        · intro hyk
          exact hc (h.trans _ _ _ (hp2.1 y hy) hyk)
    · have : i = j := by omega
      subst this
      exact ⟨i, by simp [bsLoop], hj, h1, h2⟩

/-- The search splits the keys in those before `k` and the rest. -/
theorem binarySearch_ok (h : CmpLaws cmp) (x : List K) (k : K) (hs : x.Pairwise fun a b => cmp a b < 0) :
    ∃ A B, x = A ++ B ∧ (∀ y ∈ A, cmp y k < 0) ∧
      ((∃ y B', B = y :: B' ∧ cmp y k = 0 ∧ (∀ z ∈ B', 0 < cmp z k) ∧
          binarySearch cmp x k = some (A.length, true)) ∨
       ((∀ y ∈ B, 0 < cmp y k) ∧ binarySearch cmp x k = some (A.length, false))) := by
  obtain ⟨p, hp, hle, h1, h2⟩ := bsLoop_ok h x k hs x.length 0 x.length (by omega) (Nat.le_refl _) (by omega)
    (by simp) (by simp)
  have hlen : (x.take p).length = p := by simp [hle]
  refine ⟨x.take p, x.drop p, (List.take_append_drop p x).symm, h1, ?_⟩
  rw [hlen]
  simp only [binarySearch, hp]
  have hs' := hs
  rw [← List.take_append_drop p x, List.pairwise_append] at hs'
  obtain ⟨_, hpB, _⟩ := hs'
  by_cases hlt : p < x.length
  · simp only [hlt, if_true, List.getElem?_eq_getElem hlt]
    rw [List.drop_eq_getElem_cons hlt] at hpB h2 ⊢
    rw [List.pairwise_cons] at hpB
    have hp0 := h2 _ (List.mem_cons_self ..)
    have gt : ∀ z ∈ x.drop (p + 1), 0 < cmp z k := by
      intro z hz
      have hz1 := hpB.1 z hz
      rw [← h.swap]
      by_cases he : cmp x[p] k = 0
      · exact h.eq_lt _ _ _ (h.symm _ _ he) hz1
      · have : 0 < cmp x[p] k := by omega
        rw [← h.swap] at this
        exact h.trans _ _ _ this hz1
    by_cases he : cmp x[p] k = 0
    · left
      exact ⟨_, _, rfl, he, gt, by simp [he]⟩
    · right
      refine ⟨?_, by simp [he]⟩
      intro y hy
      rcases List.mem_cons.mp hy with rfl | hy
      · omega
      · exact gt y hy
  · right
    have : x.drop p = [] := by rw [List.drop_eq_nil_iff]; omega
    simp [this, hlt]

/-- What a list of entries answers for a key. -/
def lookE (cmp : K → K → Int) (E : List (K × V)) (k : K) : Option V :=
  (E.find? fun p => cmp p.1 k == 0).map Prod.snd

/-- A map object whose entries, in order, are `E`. -/
structure MRep (cmp : K → K → Int) (m : GoMap K V) (E : List (K × V)) : Prop where
  keys : m.keys = E.map Prod.fst
  vals : m.vals = E.map Prod.snd
  sorted : E.Pairwise fun a b => cmp a.1 b.1 < 0

theorem MRep.sortedKeys {m : GoMap K V} {E} (h : MRep cmp m E) : m.keys.Pairwise fun a b => cmp a b < 0 := by
  rw [h.keys, List.pairwise_map]; exact h.sorted

theorem lookE_append (cmp : K → K → Int) (A B : List (K × V)) (k : K) :
    lookE cmp (A ++ B) k = (lookE cmp A k).or (lookE cmp B k) := by
  simp only [lookE, List.find?_append]
  cases A.find? fun p => cmp p.1 k == 0 <;> simp

theorem lookE_none {A : List (K × V)} {k : K} (h : ∀ p ∈ A, cmp p.1 k ≠ 0) : lookE cmp A k = none := by
  simp only [lookE, Option.map_eq_none_iff, List.find?_eq_none]
  intro p hp; simpa using h p hp

theorem lookE_cons_eq {p : K × V} {B : List (K × V)} {k : K} (h : cmp p.1 k = 0) :
    lookE cmp (p :: B) k = some p.2 := by
  simp [lookE, h]

theorem lookE_cons_ne {p : K × V} {B : List (K × V)} {k : K} (h : cmp p.1 k ≠ 0) :
    lookE cmp (p :: B) k = lookE cmp B k := by
  simp [lookE, h]

/-- The search on a represented map. -/
theorem MRep.find (hl : CmpLaws cmp) {m : GoMap K V} {E} (h : MRep cmp m E) (k : K) :
    ∃ A B, E = A ++ B ∧ (∀ p ∈ A, cmp p.1 k < 0) ∧
      ((∃ k0 v0 B', B = (k0, v0) :: B' ∧ cmp k0 k = 0 ∧ (∀ p ∈ B', 0 < cmp p.1 k) ∧
          m.findKey cmp k = .ok (some A.length)) ∨
       ((∀ p ∈ B, 0 < cmp p.1 k) ∧ m.findKey cmp k = .ok none ∧ m.findInsertPos cmp k = .ok A.length)) := by
  obtain ⟨A, B, hAB, hA, hB⟩ := binarySearch_ok hl m.keys k h.sortedKeys
  have hE : E = E.take A.length ++ E.drop A.length := (List.take_append_drop _ _).symm
  have hEA : (E.take A.length).map Prod.fst = A := by
    rw [List.map_take, ← h.keys, hAB]; simp
  have hEB : (E.drop A.length).map Prod.fst = B := by
    rw [List.map_drop, ← h.keys, hAB]; simp
  have hlen : (E.take A.length).length = A.length := by
    rw [← List.length_map (f := Prod.fst), hEA]
  refine ⟨E.take A.length, E.drop A.length, hE, ?_, ?_⟩
  · intro p hp
    exact hA _ (by rw [← hEA]; exact List.mem_map_of_mem hp)
  · rw [hlen]
    rcases hB with ⟨y, B', rfl, hy, hz, hbs⟩ | ⟨hgt, hbs⟩
    · left
      cases hd : E.drop A.length with
      | nil => rw [hd] at hEB; simp at hEB
      | cons p Es =>
        rw [hd] at hEB
        simp only [List.map_cons, List.cons.injEq] at hEB
        obtain ⟨rfl, hEB⟩ := hEB
        refine ⟨p.1, p.2, Es, rfl, hy, ?_, ?_⟩
        · intro q hq
          exact hz _ (by rw [← hEB]; exact List.mem_map_of_mem hq)
        · simp [GoMap.findKey, hbs]
    · right
      refine ⟨?_, by simp [GoMap.findKey, hbs], by simp [GoMap.findInsertPos, hbs]⟩
      intro p hp
      exact hgt _ (by rw [← hEB]; exact List.mem_map_of_mem hp)

theorem MRep.get (hl : CmpLaws cmp) {m : GoMap K V} {E} (h : MRep cmp m E) (k : K) :
    m.get cmp k = .ok (lookE cmp E k) := by
  obtain ⟨A, B, rfl, hA, ⟨k0, v0, B', rfl, he, hB, hf⟩ | ⟨hB, hf, _⟩⟩ := h.find hl k
  · simp only [GoMap.get, hf, Res.ok_bind]
    have : m.vals[A.length]? = some v0 := by rw [h.vals]; simp
    rw [this, lookE_append, lookE_none (A := A) fun p hp => by have := hA p hp; omega,
      lookE_cons_eq he]
    rfl
  · simp only [GoMap.get, hf, Res.ok_bind]
    rw [lookE_append, lookE_none (A := A) fun p hp => by have := hA p hp; omega,
      lookE_none (A := B) fun p hp => by have := hB p hp; omega]
    rfl

theorem MRep.has (hl : CmpLaws cmp) {m : GoMap K V} {E} (h : MRep cmp m E) (k : K) :
    m.has cmp k = .ok (lookE cmp E k).isSome := by
  obtain ⟨A, B, rfl, hA, ⟨k0, v0, B', rfl, he, hB, hf⟩ | ⟨hB, hf, _⟩⟩ := h.find hl k
  · simp only [GoMap.has, hf, Res.ok_bind]
    rw [lookE_append, lookE_none (A := A) fun p hp => by have := hA p hp; omega,
      lookE_cons_eq he]
    rfl
  · simp only [GoMap.has, hf, Res.ok_bind]
    rw [lookE_append, lookE_none (A := A) fun p hp => by have := hA p hp; omega,
      lookE_none (A := B) fun p hp => by have := hB p hp; omega]
    rfl

open Classical in
theorem MRep.set (hl : CmpLaws cmp) {m : GoMap K V} {E} (h : MRep cmp m E) (k : K) (v : V) :
    ∃ m' E', m.set cmp k v = .ok m' ∧ MRep cmp m' E' ∧ m'.dirty = true ∧
      ∀ k', lookE cmp E' k' = if cmp k k' = 0 then some v else lookE cmp E k' := by
  obtain ⟨A, B, rfl, hA, ⟨k0, v0, B', rfl, he, hB, hf⟩ | ⟨hB, hf, hp⟩⟩ := h.find hl k
  · refine ⟨⟨m.keys, m.vals.set A.length v, true⟩, A ++ (k0, v) :: B', ?_, ⟨?_, ?_, ?_⟩, rfl, ?_⟩
    · simp only [GoMap.set, hf, Res.ok_bind]
      have : A.length < m.vals.length := by rw [h.vals]; simp
      simp [this]
    · simp [h.keys]
    · simp [h.vals]
    · have := h.sorted
      rw [List.pairwise_append, List.pairwise_cons] at this ⊢
      exact ⟨this.1, this.2.1, fun a ha b hb => by
        rcases List.mem_cons.mp hb with rfl | hb
        · exact this.2.2 a ha (k0, v0) (List.mem_cons_self ..)
        · exact this.2.2 a ha b (List.mem_cons_of_mem _ hb)⟩
    · intro k'
      by_cases hk : cmp k k' = 0
      · have h0 : cmp k0 k' = 0 := hl.eq_eq _ _ _ he hk
        rw [if_pos hk, lookE_append, lookE_none (A := A), lookE_cons_eq h0]
        · rfl
        · intro p hp
          have := hl.lt_eq _ _ _ (hA p hp) hk; omega
      · have h0 : cmp k0 k' ≠ 0 := fun h0 => hk (hl.eq_eq _ _ _ (hl.symm _ _ he) h0)
        rw [if_neg hk, lookE_append, lookE_append, lookE_cons_ne h0, lookE_cons_ne h0]
  · refine ⟨⟨(A.map Prod.fst) ++ k :: B.map Prod.fst, (A.map Prod.snd) ++ v :: B.map Prod.snd, true⟩,
      A ++ (k, v) :: B, ?_, ⟨?_, ?_, ?_⟩, rfl, ?_⟩
    · simp only [GoMap.set, hf, hp, Res.ok_bind, goInsert, h.keys, h.vals]
      simp
    · simp
    · simp
    · have := h.sorted
      rw [List.pairwise_append, List.pairwise_cons] at *
      refine ⟨this.1, ⟨fun b hb => (hl.swap _ _).mpr (hB b hb), this.2.1⟩, fun a ha b hb => ?_⟩
      rcases List.mem_cons.mp hb with rfl | hb
      · exact hA a ha
      · exact this.2.2 a ha b hb
    · intro k'
      by_cases hk : cmp k k' = 0
      · rw [if_pos hk, lookE_append, lookE_none (A := A), lookE_cons_eq hk]
        · rfl
        · intro p hp
          have := hl.lt_eq _ _ _ (hA p hp) hk; omega
      · rw [if_neg hk, lookE_append, lookE_append, lookE_cons_ne hk]

open Classical in
theorem MRep.delete (hl : CmpLaws cmp) {m : GoMap K V} {E} (h : MRep cmp m E) (k : K) :
    ∃ m' E', m.delete cmp k = .ok m' ∧ MRep cmp m' E' ∧
      ∀ k', lookE cmp E' k' = if cmp k k' = 0 then none else lookE cmp E k' := by
  obtain ⟨A, B, rfl, hA, ⟨k0, v0, B', rfl, he, hB, hf⟩ | ⟨hB, hf, hp⟩⟩ := h.find hl k
  · refine ⟨⟨(A ++ B').map Prod.fst, (A ++ B').map Prod.snd, true⟩, A ++ B', ?_, ⟨rfl, rfl, ?_⟩, ?_⟩
    · simp only [GoMap.delete, hf, Res.ok_bind, goDelete, h.keys, h.vals]
      simp [List.drop_append, List.drop_of_length_le,
        Nat.add_sub_cancel_left]
    · have := h.sorted
      rw [List.pairwise_append, List.pairwise_cons] at this
      rw [List.pairwise_append]
      exact ⟨this.1, this.2.1.2, fun a ha b hb => this.2.2 a ha b (List.mem_cons_of_mem _ hb)⟩
    · intro k'
      by_cases hk : cmp k k' = 0
      · rw [if_pos hk]
        apply lookE_none
        intro p hp
        rcases List.mem_append.mp hp with hp | hp
        · have := hl.lt_eq _ _ _ (hA p hp) hk; omega
        · have h1 := (hl.swap _ _).mpr (hB p hp)
          have h2 := hl.eq_lt _ _ _ (hl.symm _ _ hk) h1
          rw [hl.swap] at h2; omega
      · have h0 : cmp k0 k' ≠ 0 := fun h0 => hk (hl.eq_eq _ _ _ (hl.symm _ _ he) h0)
        rw [if_neg hk, lookE_append, lookE_append, lookE_cons_ne h0]
  · refine ⟨m, A ++ B, by simp [GoMap.delete, hf], h, ?_⟩
    intro k'
    by_cases hk : cmp k k' = 0
    · rw [if_pos hk]
      apply lookE_none
      intro p hp
      rcases List.mem_append.mp hp with hp | hp
      · have := hl.lt_eq _ _ _ (hA p hp) hk; omega
      · have h1 := (hl.swap _ _).mpr (hB p hp)
        have h2 := hl.eq_lt _ _ _ (hl.symm _ _ hk) h1
        rw [hl.swap] at h2; omega
    · rw [if_neg hk]

theorem MRep.new : MRep cmp (GoMap.new : GoMap K V) [] := ⟨rfl, rfl, .nil⟩

theorem MRep.clear {m : GoMap K V} {E} (h : MRep cmp m E) : MRep cmp m.clear [] := by
  simp only [GoMap.clear]
  split
  · exact ⟨rfl, rfl, .nil⟩
  · rename_i h0
    have hk : m.keys = [] := List.length_eq_zero_iff.mp (by omega)
    have hE : E = [] := by
      have := h.keys; rw [hk] at this; simpa using this.symm
    subst hE
    exact h

end

open Classical in
theorem mops_rep {V : Type} (t : KTy) (ops : List (MOp t.Val V)) : ∀ (m : GoMap t.Val V) E,
    MRep t.compare m E → ∃ m' E', runMOps t.compare ops m = .ok m' ∧ MRep t.compare m' E' ∧
      lookE t.compare E' = specMOps t ops (lookE t.compare E) := by
  induction ops with
  | nil => intro m E h; exact ⟨m, E, rfl, h, rfl⟩
  | cons op ops ih =>
    intro m E h
    have step : ∃ m1 E1, op.run t.compare m = .ok m1 ∧ MRep t.compare m1 E1 ∧
        lookE t.compare E1 = op.spec t (lookE t.compare E) := by
      cases op with
      | set k v =>
        obtain ⟨m1, E1, h1, h2, _, h3⟩ := h.set t.laws k v
        refine ⟨m1, E1, h1, h2, ?_⟩
        funext k'
        rw [h3]
        simp only [MOp.spec, t.compare_same]
      | delete k =>
        obtain ⟨m1, E1, h1, h2, h3⟩ := h.delete t.laws k
        refine ⟨m1, E1, h1, h2, ?_⟩
        funext k'
        rw [h3]
        simp only [MOp.spec, t.compare_same]
      | clear =>
        exact ⟨m.clear, [], rfl, h.clear, rfl⟩
    obtain ⟨m1, E1, h1, h2, h3⟩ := step
    obtain ⟨m2, E2, h4, h5, h6⟩ := ih m1 E1 h2
    exact ⟨m2, E2, by simp [runMOps, h1, h4], h5, by rw [h6, h3]; rfl⟩

/-- A represented map shows what its entries say. -/
theorem MRep.shows {V : Type} {t : KTy} {m : GoMap t.Val V} {E} (h : MRep t.compare m E) :
    ShowsMap t m (lookE t.compare E) where
  get := h.get t.laws
  has := h.has t.laws
  sorted := h.sortedKeys.imp fun {a b} hab => (t.compare_before a b).mp hab
  distinct := h.sortedKeys.imp fun {a b} hab hs => by
    rw [← t.compare_same] at hs; omega
  aligned := by
    refine ⟨by simp [h.keys, h.vals], ?_⟩
    intro i k hk
    rw [h.keys, List.getElem?_map, Option.map_eq_some_iff] at hk
    obtain ⟨⟨k', v⟩, hi, rfl⟩ := hk
    refine ⟨v, by rw [h.vals, List.getElem?_map, hi]; rfl, ?_⟩
    obtain ⟨hlt, hget⟩ := List.getElem?_eq_some_iff.mp hi
    have hsplit : E = E.take i ++ (k', v) :: E.drop (i + 1) := by
      rw [← hget, ← List.drop_eq_getElem_cons hlt, List.take_append_drop]
    have hs := h.sorted
    rw [hsplit, List.pairwise_append] at hs
    rw [hsplit, lookE_append, lookE_none (A := E.take i), lookE_cons_eq (t.laws.refl k')]
    · rfl
    · intro p hp
      have := hs.2.2 p hp (k', v) (List.mem_cons_self ..)
      simp only at this ⊢
      omega
  complete := by
    intro k hk
    simp only [lookE, Option.isSome_map, List.find?_isSome, beq_iff_eq] at hk
    obtain ⟨p, hp, hc⟩ := hk
    exact ⟨p.1, by rw [h.keys]; exact List.mem_map_of_mem hp, (t.compare_same _ _).mp hc⟩
  len := rfl

end Claw
