import Verif.Lemmas.TextRead
import Verif.Lemmas.JsonBack

/-!
# Which values come back from a text as they were
-/

namespace Claw.Text

open Claw.Idl (FT Out)
open Claw.Tok
open Claw.Json (Scalar encodeRune runes repaired special base64 Utf8 repaired_utf8 bits_nonneg bits_neg ieeeMag_small ieeeMag_big)

theorem backNum_kept {x : Ext} (hx : FloatsOk x) {o : Opts} {t : FT} {e : Option EnumT} {d : UInt64} (h : KeptNum o t e d) :
    backNum x o t e d = d := by
  cases e with
  | some e =>
    simp only [KeptNum] at h
    simp only [backNum]
    split
    · rfl
    · rename_i hu
      rcases h with ⟨h1, h2⟩ | ⟨h1, h2⟩ | ⟨h1, h2⟩
      · exact absurd (by rcases h2 with rfl | rfl <;> simp [h1]) hu
      · rw [if_neg h1, h2]
      · rw [if_pos h1, h2]
  | none =>
    cases t <;> simp only [KeptNum] at h <;> first | rfl | skip
    · exact h.symm
    · subst h
      have hw : wholeFloat .float32 0 = true := by decide +kernel
      have hs : special .float32 0 = false := by decide
      simp only [backNum, hs, hw, Bool.false_eq_true, if_false, if_true]
      decide +kernel
    · rcases h with rfl | ⟨h1, h2⟩
      · have hw : wholeFloat .float64 0 = true := by decide +kernel
        have hs : special .float64 0 = false := by decide
        simp only [backNum, hs, hw, Bool.false_eq_true, if_false, if_true]
        decide +kernel
      · simp only [backNum, h1, h2, Bool.false_eq_true, if_false]
        rw [hx.same d h1 h2]
        rfl

theorem numReadable_kept {o : Opts} {t : FT} {e : Option EnumT} {d : UInt64} (h : KeptNum o t e d) :
    numReadable t e d = true := by
  cases e with
  | some e => rfl
  | none =>
    cases t <;> simp only [KeptNum] at h <;> first | rfl | skip
    simp [numReadable]
    omega

mutual

theorem back_kept {x : Ext} (hx : FloatsOk x) {o : Opts} {env : Env} {ty : Ty} (v : Val) (hf : Fits env ty v)
    (hk : Kept o env ty v) : back x o env ty v = v ∧ readable env ty v = true := by
  cases v with
  | num d => cases hf; simp only [Kept] at hk; simp only [back, backNum_kept hx hk, readable, numReadable_kept hk, and_self]
  | bin b =>
    cases hf with
    | str => simp only [Kept] at hk; simp [back, strBack, hk.2, repaired_utf8 hk.1, readable]
    | bytes =>
      simp only [Kept] at hk
      refine ⟨?_, rfl⟩
      simp only [back]
      rcases hk with hk | rfl
      · rw [if_pos hk]
      · split <;> rfl
  | obj fs =>
    cases hf with
    | obj hfs =>
      simp only [Kept] at hk
      have := backFields_kept hx fs hfs hk
      simp only [back, readable, this, and_self]
  | _ => simp only [Kept] at hk
termination_by sizeOf v

theorem backFields_kept {x : Ext} (hx : FloatsOk x) {o : Opts} {env : Env} {ds : List Decl} (vs : List Val)
    (hf : FitsAll env ds vs) (hk : KeptFields o env ds vs) :
    backFields x o env ds vs = vs ∧ readables env ds vs = true := by
  cases vs with
  | nil => cases hf; exact ⟨rfl, rfl⟩
  | cons v vs =>
    cases hf with
    | cons hv hvs =>
      simp only [KeptFields] at hk
      have h1 := back_kept hx v hv hk.1
      have h2 := backFields_kept hx vs hvs hk.2
      simp only [backFields, readables, h1, h2, Bool.and_self, and_self]
termination_by sizeOf vs

end

/-! ### What is lost -/

theorem runes_enc {rs : List Nat} (h : ∀ r ∈ rs, Scalar r) : runes (enc rs) = rs :=
  Claw.Json.runesN_encode rs h _ (Nat.le_refl _)

theorem mem_noComma {p : List Nat} {r : Nat} (h : r ∈ (noComma p).dropLast) : r ∈ p := by
  unfold noComma at h
  split at h
  · exact List.dropLast_subset _ (List.dropLast_subset _ h)
  · exact List.dropLast_subset _ h

/-- A string with white space after a quote comes back as another one. -/
theorem strBack_ne {s : Bytes} (h : quoteSpace s = true) : strBack s ≠ s := by
  intro he
  unfold strBack at he
  rw [if_pos h] at he
  have h1 : enc (noComma (firstPart s)).dropLast ++ [0x5C] = enc ((noComma (firstPart s)).dropLast ++ [0x5C]) := by
    rw [enc_append]; rfl
  have hm : ∀ r ∈ (noComma (firstPart s)).dropLast, r ∈ runes s ∧ wide r = false := by
    intro r hr
    have h2 := mem_noComma hr
    refine ⟨(List.takeWhile_sublist _).subset h2, ?_⟩
    have := List.all_takeWhile (p := fun r => !wide r) (l := runes s)
    have := List.all_eq_true.1 this r h2
    simpa using this
  have h2 : runes s = (noComma (firstPart s)).dropLast ++ [0x5C] := by
    rw [h1] at he
    have := runes_enc (rs := (noComma (firstPart s)).dropLast ++ [0x5C]) (by
      intro r hr
      rcases List.mem_append.1 hr with hr | hr
      · exact Claw.Json.runes_scalar (hm r hr).1
      · rw [List.mem_singleton] at hr; subst hr; simp [Scalar])
    rwa [he] at this
  have h3 : firstPart s = runes s := by
    have hall : ∀ r ∈ runes s, wide r = false := by
      intro r hr
      rw [h2] at hr
      rcases List.mem_append.1 hr with hr | hr
      · exact (hm r hr).2
      · rw [List.mem_singleton] at hr; subst hr; rfl
    unfold firstPart
    generalize runes s = l at hall
    induction l with
    | nil => rfl
    | cons a l ih =>
      rw [List.takeWhile_cons, hall a (by simp), ih fun r hr => hall r (by simp [hr])]
      rfl
  unfold quoteSpace at h
  rw [h3] at h
  simp at h

/-- A whole float64 other than plus zero comes back as another one. -/
theorem whole64_ne {d : UInt64} (h0 : d ≠ 0) (hw : wholeFloat .float64 d = true) (hs : special .float64 d = false) :
    (Int64.ofInt ((floatParts .float64 d).1.tdiv (floatParts .float64 d).2)).toUInt64 ≠ d := by
  have h1 := whole_small hw
  have h2 := whole_tdiv .float64 d
  have hv : (F64.value ⟨d⟩).natAbs < 10 ^ 6 * 2 ^ 1074 := by
    have h := hw
    unfold wholeFloat at h
    simp only [Bool.and_eq_true, decide_eq_true_eq] at h
    exact h.2
  have hv' : (F64.value ⟨d⟩).natAbs < 2 ^ 53 * 2 ^ 1074 :=
    Nat.lt_of_lt_of_le hv (Nat.mul_le_mul_right _ (by decide))
  have h3 := Claw.Json.float64_changes (fun _ _ => 0) false d h0 hs hv'
  have hfi : Claw.Json.floatInt (fun _ _ => 0) .float64 d = (floatParts .float64 d).1.tdiv (floatParts .float64 d).2 := by
    delta Claw.Json.floatInt
    dsimp only
    rw [if_pos hv']
    delta floatParts
    dsimp only
    congr 1
  have hb : Claw.Json.backNum (fun _ _ => 0) false .float64 none d =
      (Int64.ofInt (Claw.Json.clamp (Claw.Json.floatInt (fun _ _ => 0) .float64 d))).toUInt64 := if_neg (by simp [hs])
  rw [hb, hfi] at h3
  generalize (floatParts .float64 d).1.tdiv (floatParts .float64 d).2 = k at *
  generalize (floatParts .float64 d).1.natAbs / (floatParts .float64 d).2 = q at *
  have h4 : -(10 ^ 6) < k ∧ k < 10 ^ 6 := by
    split at h2 <;> omega
  rwa [Claw.Json.clamp_id (by omega) (by omega)] at h3

/-- A whole float32 other than plus zero comes back as another one. -/
theorem whole32_ne {y : UInt32} (h0 : y ≠ 0) (hw : wholeFloat .float32 y.toUInt64 = true)
    (hs : special .float32 y.toUInt64 = false) :
    norm .float32 (Int64.ofInt ((floatParts .float32 y.toUInt64).1.tdiv (floatParts .float32 y.toUInt64).2)).toUInt64 ≠
      y.toUInt64 := by
  have h1 := whole_small hw
  have h2 := whole_tdiv .float32 y.toUInt64
  have hp : floatParts .float32 y.toUInt64 = (F32.value ⟨y⟩, 2 ^ 149) := by
    simp only [floatParts, UInt32.toUInt32_toUInt64]
  have hv : (F32.value ⟨y⟩).natAbs < 10 ^ 6 * 2 ^ 149 := by
    have h := hw
    unfold wholeFloat at h
    rw [hp] at h
    simp only [Bool.and_eq_true, decide_eq_true_eq] at h
    exact h.2
  have hv' : (F32.value ⟨y⟩).natAbs < 2 ^ 24 * 2 ^ 149 :=
    Nat.lt_of_lt_of_le hv (Nat.mul_le_mul_right _ (by decide))
  have h3 := Claw.Json.float32_changes (fun _ _ => 0) false y h0 hs hv'
  have hfi : Claw.Json.floatInt (fun _ _ => 0) .float32 y.toUInt64 =
      (floatParts .float32 y.toUInt64).1.tdiv (floatParts .float32 y.toUInt64).2 := by
    unfold Claw.Json.floatInt
    rw [UInt32.toUInt32_toUInt64, hp]
    simp only
    rw [if_pos hv']
    rfl
  have hb : Claw.Json.backNum (fun _ _ => 0) false .float32 none y.toUInt64 =
      norm .float32 (Int64.ofInt (Claw.Json.clamp (Claw.Json.floatInt (fun _ _ => 0) .float32 y.toUInt64))).toUInt64 :=
    if_neg (by simp [hs])
  rw [hb, hfi] at h3
  clear hp hfi
  generalize (floatParts .float32 y.toUInt64).1.tdiv (floatParts .float32 y.toUInt64).2 = k at *
  generalize (floatParts .float32 y.toUInt64).1.natAbs / (floatParts .float32 y.toUInt64).2 = q at *
  have h4 : -(10 ^ 6) < k ∧ k < 10 ^ 6 := by
    split at h2 <;> omega
  rwa [Claw.Json.clamp_id (by omega) (by omega)] at h3

mutual

theorem plainKeys_kept {o : Opts} {env : Env} {ty : Ty} (v : Val) (hf : Fits env ty v) (hk : Kept o env ty v) :
    plainKeys v = true := by
  cases v with
  | obj fs =>
    cases hf with
    | obj hfs =>
      simp only [Kept] at hk
      simp only [plainKeys]
      exact plainAll_kept fs hfs hk
  | map ks vs => simp only [Kept] at hk
  | _ => rfl
termination_by sizeOf v

theorem plainAll_kept {o : Opts} {env : Env} {ds : List Decl} (vs : List Val) (hf : FitsAll env ds vs)
    (hk : KeptFields o env ds vs) : plainAll vs = true := by
  cases vs with
  | nil => rfl
  | cons v vs =>
    cases hf with
    | cons hv hvs =>
      simp only [KeptFields] at hk
      simp only [plainAll, plainKeys_kept v hv hk.1, plainAll_kept vs hvs hk.2, Bool.and_self]
termination_by sizeOf vs

end

/-- Lists, maps and Any values. -/
def container : Ty → Bool
  | .num _ _ | .str | .bytes | .struct _ => false
  | _ => true

theorem readable_container {env : Env} {ty : Ty} {v : Val} (hf : Fits env ty v) (h : container ty = true ∨ v = .null) :
    readable env ty v = false := by
  rcases h with h | rfl
  · cases hf <;> first | rfl | simp [container] at h
  · rfl

theorem readables_false {env : Env} : ∀ {ds : List Decl} {vs : List Val}, FitsAll env ds vs →
    ∀ {d : Decl} {v : Val}, (d, v) ∈ ds.zip vs → (container d.ty = true ∨ v = .null) → readables env ds vs = false
  | _, _, .nil, _, _, hm, _ => by simp at hm
  | _ :: _, _ :: _, .cons hv hvs, _, _, hm, h => by
    rw [List.zip_cons_cons] at hm
    rw [readables]
    rcases List.mem_cons.1 hm with hm | hm
    · cases hm
      rw [readable_container hv h, Bool.false_and]
    · rw [readables_false hvs hm h, Bool.and_false]

theorem ident_x : Ident (lit "x") :=
  ⟨120, [], rfl, by
    intro c hc
    rw [List.mem_singleton] at hc
    subst hc
    exact ⟨by simp [Claw.Json.Scalar], rfl, .inr (.inr (.inl ⟨by decide, by decide⟩))⟩, by decide⟩

end Claw.Text
