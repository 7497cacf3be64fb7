import Verif.Spec.Base64
import Verif.Model.Json

/-!
# Base64 and hexadecimal are read back
-/

namespace Claw.Json

theorem digit_b64 : ∀ n : Fin 64, digit64 (b64char n.val) = some n.val ∧ b64char n.val ≠ 0x3D := by decide +kernel

theorem digit_hex : ∀ n : Fin 16, digit16 (hexDigit n.val) = some n.val := by decide +kernel

theorem digit64_b64char {n : Nat} (h : n < 64) : digit64 (b64char n) = some n := (digit_b64 ⟨n, h⟩).1

theorem b64char_ne {n : Nat} (h : n < 64) : b64char n ≠ 0x3D := (digit_b64 ⟨n, h⟩).2

theorem digit16_hexDigit {n : Nat} (h : n < 16) : digit16 (hexDigit n) = some n := digit_hex ⟨n, h⟩

theorem byte_eq {n : Nat} {a : UInt8} (h : n = a.toNat) : n.toUInt8 = a := by
  subst h
  simp

theorem decode64_base64 : ∀ b : Bytes, decode64 (base64 b) = some b
  | [] => rfl
  | [a] => by
    have ha := a.toNat_lt
    simp only [base64, decode64, and_self, if_true, digit64_b64char (show a.toNat / 4 < 64 by omega),
      digit64_b64char (show a.toNat % 4 * 16 < 64 by omega), Option.bind_eq_bind, Option.bind_some]
    have hn : number 64 [a.toNat / 4, a.toNat % 4 * 16] = a.toNat * 16 := by
      simp only [number, List.foldl]; omega
    rw [hn, if_pos (by omega), byte_eq (a := a) (by omega)]
  | [a, b] => by
    have ha := a.toNat_lt
    have hb := b.toNat_lt
    simp only [base64, decode64, and_self, if_true, if_neg (b64char_ne (show b.toNat % 16 * 4 < 64 by omega)),
      digit64_b64char (show a.toNat / 4 < 64 by omega),
      digit64_b64char (show a.toNat % 4 * 16 + b.toNat / 16 < 64 by omega),
      digit64_b64char (show b.toNat % 16 * 4 < 64 by omega), Option.bind_eq_bind, Option.bind_some]
    have hn : number 64 [a.toNat / 4, a.toNat % 4 * 16 + b.toNat / 16, b.toNat % 16 * 4] = (a.toNat * 256 + b.toNat) * 4 := by
      simp only [number, List.foldl]; omega
    rw [hn, if_pos (by omega), byte_eq (a := a) (by omega), byte_eq (a := b) (by omega)]
  | a :: b :: c :: r => by
    have ha := a.toNat_lt
    have hb := b.toNat_lt
    have hc := c.toNat_lt
    simp only [base64, decode64, b64char_ne (show c.toNat % 64 < 64 by omega), false_and, if_false,
      digit64_b64char (show a.toNat / 4 < 64 by omega),
      digit64_b64char (show a.toNat % 4 * 16 + b.toNat / 16 < 64 by omega),
      digit64_b64char (show b.toNat % 16 * 4 + c.toNat / 64 < 64 by omega),
      digit64_b64char (show c.toNat % 64 < 64 by omega), Option.bind_eq_bind, Option.bind_some,
      decode64_base64 r]
    have hn : number 64 [a.toNat / 4, a.toNat % 4 * 16 + b.toNat / 16, b.toNat % 16 * 4 + c.toNat / 64, c.toNat % 64] =
        (a.toNat * 256 + b.toNat) * 256 + c.toNat := by
      simp only [number, List.foldl]; omega
    rw [hn, byte_eq (a := a) (by omega), byte_eq (a := b) (by omega), byte_eq (a := c) (by omega)]

theorem decode16_hexOf : ∀ b : Bytes, decode16 (hexOf b) = some b
  | [] => rfl
  | a :: r => by
    have ha := a.toNat_lt
    have ih := decode16_hexOf r
    unfold hexOf at ih ⊢
    simp only [List.flatMap_cons, List.cons_append, List.nil_append, decode16, ih,
      digit16_hexDigit (show a.toNat / 16 < 16 by omega), digit16_hexDigit (show a.toNat % 16 < 16 by omega), Option.bind_eq_bind, Option.bind_some]
    have hn : number 16 [a.toNat / 16, a.toNat % 16] = a.toNat := by
      simp only [number, List.foldl]; omega
    rw [hn, byte_eq (a := a) rfl]

end Claw.Json
