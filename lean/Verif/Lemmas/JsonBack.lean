import Verif.Lemmas.JsonRead

/-!
# What comes back of a scalar is another one
-/

namespace Claw.Json

open Claw.Idl (FT Out)
open Claw.Tok

/-- The bits of an int64. -/
theorem bits_nonneg {k : Int} (h1 : 0 ≤ k) (h2 : k < 2 ^ 63) : ((Int64.ofInt k).toUInt64).toNat = k.toNat := by
  obtain ⟨m, rfl⟩ := Int.eq_ofNat_of_zero_le h1
  rw [Int64.ofInt_eq_ofNat]
  simp
  omega

theorem bits_neg {k : Int} (h1 : k < 0) (h2 : -(2 ^ 63) ≤ k) : ((Int64.ofInt k).toUInt64).toNat = (2 ^ 64 + k).toNat := by
  have h3 : (Int64.ofInt k).toUInt64.toBitVec = BitVec.ofInt 64 k := rfl
  rw [← UInt64.toNat_toBitVec, h3, BitVec.toNat_ofInt]
  omega

theorem natAbs_tdiv_lt {v K : Int} {B : Nat} (hK : 0 < K) (h : v.natAbs < B * K.natAbs) : (v.tdiv K).natAbs < B := by
  rw [Int.natAbs_tdiv]
  exact Nat.div_lt_of_lt_mul (by rwa [Nat.mul_comm])

theorem tdiv_small {v K : Int} (h : v.natAbs < K.natAbs) : v.tdiv K = 0 := by
  have : (v.tdiv K).natAbs = 0 := by
    rw [Int.natAbs_tdiv]
    exact Nat.div_eq_of_lt h
  omega

theorem ieeeMag_small {p e m : Nat} (he : e ≤ 1) (hm : m < 2 ^ p) : ieeeMag p e m < 2 ^ (p + 1) := by
  unfold ieeeMag
  rw [Nat.pow_succ]
  split
  · omega
  · have : e = 1 := by omega
    subst this
    simp
    omega

theorem ieeeMag_big {p e m k : Nat} (he : k < e) : 2 ^ (p + k) ≤ ieeeMag p e m := by
  unfold ieeeMag
  rw [if_neg (by omega), Nat.pow_add]
  exact Nat.mul_le_mul (by omega) (Nat.pow_le_pow_right (by decide) (by omega))

theorem float64_changes (big : FT → UInt64 → Int) (u : Bool) (d : UInt64) (h0 : d ≠ 0) (hs : special .float64 d = false)
    (hv : (F64.value ⟨d⟩).natAbs < 2 ^ 53 * 2 ^ 1074) : backNum big u .float64 none d ≠ d := by
  intro heq
  have hfi : floatInt big .float64 d = (F64.value ⟨d⟩).tdiv (2 ^ 1074) := by
    delta floatInt
    dsimp only
    rw [if_pos hv]
  have hb : backNum big u .float64 none d = (Int64.ofInt (clamp (floatInt big .float64 d))).toUInt64 := if_neg (by simp [hs])
  rw [hb, hfi] at heq
  clear hfi hb
  have hm : (F64.value ⟨d⟩).natAbs = ieeeMag 52 (d.toNat % 2 ^ 63 / 2 ^ 52) (d.toNat % 2 ^ 52) := by
    simp only [F64.value]
    split <;> omega
  have hK : ((2 : Int) ^ 1074).natAbs = 2 ^ 1074 := by rw [Int.natAbs_pow]; rfl
  have hKpos : (0 : Int) < 2 ^ 1074 := Int.pow_pos (by decide)
  have hk : ((F64.value ⟨d⟩).tdiv (2 ^ 1074)).natAbs < 2 ^ 53 := natAbs_tdiv_lt hKpos (by rw [hK]; exact hv)
  have hsmall : (F64.value ⟨d⟩).natAbs < 2 ^ 53 → (F64.value ⟨d⟩).tdiv (2 ^ 1074) = 0 := by
    intro h
    apply tdiv_small
    rw [hK]
    exact Nat.lt_of_lt_of_le h (Nat.pow_le_pow_right (by decide) (by decide))
  generalize (F64.value ⟨d⟩).tdiv (2 ^ 1074) = k at *
  have hd := d.toNat_lt
  rw [clamp_id (by omega) (by omega)] at heq
  by_cases hneg : k < 0
  · have h1 := bits_neg hneg (by omega)
    rw [heq] at h1
    have he : d.toNat % 2 ^ 63 / 2 ^ 52 = 2046 ∨ d.toNat % 2 ^ 63 / 2 ^ 52 = 2047 := by omega
    rcases he with he | he
    · have := ieeeMag_big (p := 52) (e := d.toNat % 2 ^ 63 / 2 ^ 52) (m := d.toNat % 2 ^ 52) (k := 1075) (by omega)
      rw [← hm, Nat.pow_add] at this
      have h3 : (2 : Nat) ^ 53 * 2 ^ 1074 = 2 ^ 52 * 2 ^ 1075 := by rw [← Nat.pow_add, ← Nat.pow_add]
      omega
    · simp [special, he] at hs
  · have h1 := bits_nonneg (k := k) (by omega) (by omega)
    rw [heq] at h1
    have := ieeeMag_small (p := 52) (e := d.toNat % 2 ^ 63 / 2 ^ 52) (m := d.toNat % 2 ^ 52) (by omega) (by omega)
    rw [← hm] at this
    have hk0 := hsmall this
    apply h0
    apply UInt64.toNat_inj.1
    rw [h1, hk0]
    rfl

theorem float32_changes (big : FT → UInt64 → Int) (u : Bool) (x : UInt32) (h0 : x ≠ 0) (hs : special .float32 x.toUInt64 = false)
    (hv : (F32.value ⟨x⟩).natAbs < 2 ^ 24 * 2 ^ 149) : backNum big u .float32 none x.toUInt64 ≠ x.toUInt64 := by
  intro heq
  have hfi : floatInt big .float32 x.toUInt64 = (F32.value ⟨x⟩).tdiv (2 ^ 149) := by
    unfold floatInt
    rw [UInt32.toUInt32_toUInt64]
    exact if_pos hv
  have hb : backNum big u .float32 none x.toUInt64 =
      (Int64.ofInt (clamp (floatInt big .float32 x.toUInt64))).toUInt64.toUInt32.toUInt64 := if_neg (by simp [hs])
  rw [hb, hfi] at heq
  clear hfi hb
  have heq : ((Int64.ofInt (clamp ((F32.value ⟨x⟩).tdiv (2 ^ 149)))).toUInt64).toUInt32 = x := by
    have := congrArg UInt64.toUInt32 heq
    rwa [UInt32.toUInt32_toUInt64, UInt32.toUInt32_toUInt64] at this
  have hm : (F32.value ⟨x⟩).natAbs = ieeeMag 23 (x.toNat % 2 ^ 31 / 2 ^ 23) (x.toNat % 2 ^ 23) := by
    simp only [F32.value]
    split <;> omega
  have hK : ((2 : Int) ^ 149).natAbs = 2 ^ 149 := by rw [Int.natAbs_pow]; rfl
  have hKpos : (0 : Int) < 2 ^ 149 := Int.pow_pos (by decide)
  have hk : ((F32.value ⟨x⟩).tdiv (2 ^ 149)).natAbs < 2 ^ 24 := natAbs_tdiv_lt hKpos (by rw [hK]; exact hv)
  have hsmall : (F32.value ⟨x⟩).natAbs < 2 ^ 24 → (F32.value ⟨x⟩).tdiv (2 ^ 149) = 0 := by
    intro h
    apply tdiv_small
    rw [hK]
    exact Nat.lt_of_lt_of_le h (Nat.pow_le_pow_right (by decide) (by decide))
  generalize (F32.value ⟨x⟩).tdiv (2 ^ 149) = k at *
  have hd := x.toNat_lt
  rw [clamp_id (by omega) (by omega)] at heq
  have h2 := congrArg UInt32.toNat heq
  rw [UInt64.toNat_toUInt32] at h2
  by_cases hneg : k < 0
  · rw [bits_neg hneg (by omega)] at h2
    have he : x.toNat % 2 ^ 31 / 2 ^ 23 = 254 ∨ x.toNat % 2 ^ 31 / 2 ^ 23 = 255 := by omega
    rcases he with he | he
    · have := ieeeMag_big (p := 23) (e := x.toNat % 2 ^ 31 / 2 ^ 23) (m := x.toNat % 2 ^ 23) (k := 150) (by omega)
      rw [← hm, Nat.pow_add] at this
      have h3 : (2 : Nat) ^ 24 * 2 ^ 149 = 2 ^ 23 * 2 ^ 150 := by decide
      omega
    · simp [special, he] at hs
  · rw [bits_nonneg (k := k) (by omega) (by omega)] at h2
    have := ieeeMag_small (p := 23) (e := x.toNat % 2 ^ 31 / 2 ^ 23) (m := x.toNat % 2 ^ 23) (by omega) (by omega)
    rw [← hm] at this
    have hk0 := hsmall this
    apply h0
    apply UInt32.toNat_inj.1
    rw [← h2, hk0]
    rfl

theorem base64_length : ∀ b : Bytes, b ≠ [] → b.length < (base64 b).length
  | [], h => absurd rfl h
  | [_], _ => by simp [base64]
  | [_, _], _ => by simp [base64]
  | a :: b :: c :: r, _ => by
    by_cases hr : r = []
    · subst hr; simp [base64]
    · have := base64_length r hr
      simp only [base64, List.length_cons]
      omega

theorem backNum_kept {big : FT → UInt64 → Int} {u : Bool} {t : FT} {e : Option EnumT} {d : UInt64} (h : KeptNum u t e d) :
    backNum big u t e d = d := by
  cases e with
  | some e =>
    simp only [KeptNum] at h
    simp only [backNum]
    split
    · rfl
    · rename_i hu
      rcases h with ⟨h1, h2⟩ | ⟨h1, h2, h3⟩ | ⟨h1, h2⟩
      · exact absurd (by rcases h2 with rfl | rfl <;> simp [h1]) hu
      · rw [if_neg h1, repaired_utf8 h2, h3]
      · rw [if_pos h1, h2]
  | none =>
    cases t <;> simp only [KeptNum] at h <;> first | rfl | skip
    · show (if 2 ^ 63 ≤ d.toNat then (2 ^ 63 - 1 : UInt64) else d) = d
      rw [if_neg (by omega)]
    · subst h
      show (if special .float32 0 then 0 else norm .float32 (Int64.ofInt (clamp (floatInt big .float32 0))).toUInt64) = _
      rw [if_neg (by decide)]
      rfl
    · subst h
      show (if special .float64 0 then 0 else norm .float64 (Int64.ofInt (clamp (floatInt big .float64 0))).toUInt64) = _
      rw [if_neg (by decide)]
      have : floatInt big .float64 0 = 0 := by
        delta floatInt
        dsimp only
        have hz : (F64.value ⟨0⟩).natAbs = 0 := by decide
        rw [if_pos (by rw [hz]; exact Nat.mul_pos (by decide) (Nat.pow_pos (by decide)))]
        have : F64.value ⟨0⟩ = 0 := by decide
        rw [this, Int.zero_tdiv]
      rw [this]
      rfl

theorem map_fix {α : Type} {f : α → α} {l : List α} (h : ∀ a ∈ l, f a = a) : l.map f = l := by
  induction l with
  | nil => rfl
  | cons a l ih => rw [List.map_cons, h a (by simp), ih fun a ha => h a (by simp [ha])]

mutual

theorem back_kept {env : Env} {big : FT → UInt64 → Int} {u : Bool} {ty : Ty} (v : Val) (hf : Fits env ty v)
    (hk : Kept env u ty v) : back env big u ty v = v := by
  cases v with
  | num d => cases hf; simp only [Kept] at hk; simp only [back, backNum_kept hk]
  | bin b =>
    cases hf with
    | str => simp only [Kept] at hk; simp only [back, repaired_utf8 hk]
    | bytes => simp only [Kept] at hk; subst hk; rfl
  | null => cases hf <;> rfl
  | obj fs =>
    cases hf with
    | obj hfs =>
      simp only [Kept] at hk
      simp only [back, backFields_kept fs hfs hk]
  | nums ds =>
    cases hf
    simp only [Kept] at hk
    simp only [back]
    rw [map_fix fun d hd => backNum_kept (hk d hd)]
  | bins bs =>
    cases hf with
    | strs =>
      simp only [Kept] at hk
      simp only [back]
      rw [map_fix fun d hd => repaired_utf8 (hk d hd)]
    | binaries =>
      simp only [Kept] at hk
      simp only [back]
      rw [map_fix fun d hd => by rw [hk d hd]; rfl]
  | list l =>
    cases hf with
    | list hl =>
      simp only [Kept] at hk
      simp only [back, backItems_kept l hl hk]
  | map ks vs => cases hf; rfl
  | any h d => cases hf; rfl
  | anys l => cases hf; rfl
termination_by sizeOf v

theorem backFields_kept {env : Env} {big : FT → UInt64 → Int} {u : Bool} {ds : List Decl} (vs : List Val)
    (hf : FitsAll env ds vs) (hk : KeptFields env u ds vs) : backFields env big u ds vs = vs := by
  cases vs with
  | nil => cases hf; rfl
  | cons v vs =>
    cases hf with
    | cons hv hvs =>
      simp only [KeptFields] at hk
      simp only [backFields, back_kept v hv hk.1, backFields_kept vs hvs hk.2]
termination_by sizeOf vs

theorem backItems_kept {env : Env} {big : FT → UInt64 → Int} {u : Bool} {s : Nat} (l : List Val)
    (hf : FitsItems env s l) (hk : KeptItems env u s l) : backItems env big u s l = l := by
  cases l with
  | nil => rfl
  | cons v l =>
    cases v <;> cases hf
    rename_i fs hfs hl
    simp only [KeptItems, Kept] at hk
    simp only [backItems, back, backFields_kept fs hfs hk.1, backItems_kept l hl hk.2]
termination_by sizeOf l

end

/-! ### Braces -/

/-- Open braces minus closing braces. -/
def braces : List Lex → Int
  | [] => 0
  | .lbrace :: l => braces l + 1
  | .rbrace :: l => braces l - 1
  | _ :: l => braces l

theorem braces_append (a b : List Lex) : braces (a ++ b) = braces a + braces b := by
  induction a with
  | nil => simp [braces]
  | cons x a ih => cases x <;> simp only [List.cons_append, braces, ih] <;> omega

mutual

theorem braces_render (j : J) : braces (render j) = 0 := by
  cases j with
  | null => rfl
  | bool b => cases b <;> rfl
  | num n => rfl
  | str b => rfl
  | arr l => simp only [render, braces, braces_append, braces_renderJs l true]; rfl
  | obj m => simp only [render, braces, braces_append, braces_renderMs m true]; rfl
termination_by sizeOf j

theorem braces_renderJs (l : Js) (first : Bool) : braces (renderJs first l) = 0 := by
  cases l with
  | nil => rfl
  | cons j l =>
    simp only [renderJs, braces_append, braces_render j, braces_renderJs l false]
    cases first <;> rfl
termination_by sizeOf l

theorem braces_renderMs (m : Ms) (first : Bool) : braces (renderMs first m) = 0 := by
  cases m with
  | nil => rfl
  | cons n j m =>
    simp only [renderMs, braces, braces_append, braces_render j, braces_renderMs m false]
    cases first <;> rfl
termination_by sizeOf m

end

theorem braces_wellFormed {ls : List Lex} (h : WellFormed ls) : braces ls = 0 := by
  obtain ⟨j, rfl⟩ := h
  exact braces_render j

/-! ### Keys of maps -/

theorem outEntries_number_keys {env : Env} {u : Bool} {al : Bytes → Bytes → List Lex} {v : MTy} (vs : List Val) :
    ∀ (ks ks' : List Key) (first : Bool), (∀ k ∈ ks, ∃ d, k = .num d) → (∀ k ∈ ks', ∃ d, k = .num d) →
      ks.length = vs.length → ks'.length = vs.length →
      outEntries env u al v first ks vs = outEntries env u al v first ks' vs := by
  induction vs with
  | nil =>
    intro ks ks' first _ _ h1 h2
    rw [List.eq_nil_of_length_eq_zero h1, List.eq_nil_of_length_eq_zero h2]
  | cons x vs ih =>
    intro ks ks' first hk hk' h1 h2
    cases ks with
    | nil => simp at h1
    | cons a ks =>
      cases ks' with
      | nil => simp at h2
      | cons b ks' =>
        obtain ⟨d, rfl⟩ := hk a (by simp)
        obtain ⟨d', rfl⟩ := hk' b (by simp)
        simp only [outEntries, keyName]
        rw [ih ks ks' false (fun k h => hk k (by simp [h])) (fun k h => hk' k (by simp [h])) (by simpa using h1) (by simpa using h2)]

theorem treeEntries_names {env : Env} {u : Bool} {anyJ : Bytes → Bytes → J} {v : MTy} (vs : List Val) :
    ∀ (ks : List Key), ks.length = vs.length → (treeEntries env u anyJ v ks vs).names = ks.map keyName := by
  induction vs with
  | nil => intro ks h; rw [List.eq_nil_of_length_eq_zero h]; rfl
  | cons x vs ih =>
    intro ks h
    cases ks with
    | nil => simp at h
    | cons a ks => simp only [treeEntries, Ms.names, List.map_cons, ih ks (by simpa using h)]

theorem fitsVals_length {env : Env} {v : MTy} (vs : List Val) : ∀ {ks : List Key}, FitsVals env v ks vs → ks.length = vs.length := by
  induction vs with
  | nil => intro ks h; cases h; rfl
  | cons x vs ih =>
    intro ks h
    cases h with
    | cons _ h => simp [ih h]

end Claw.Json
