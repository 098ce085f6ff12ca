import Verif.Lemmas.Strconv
import Verif.Model.Wire
/-!
# Integers as floats
-/
namespace Wamp
open Wamp.Strconv

/-- Integers up to 2^53 are floats. -/
theorem exact_nat (n : Nat) (h : n ≤ 2 ^ 53) : ∃ m e, IsFloat 11 52 m e ∧ n * 2 ^ lowest 11 52 = m * 2 ^ (e + lowest 11 52).toNat * 1 := by
  have hl : lowest 11 52 = 1074 := rfl
  have hm : 2 ^ 11 - 3 = 2045 := rfl
  rw [hl]
  unfold IsFloat
  rw [hl, hm]
  by_cases h0 : n = 0
  · subst h0
    exact ⟨0, -1074, ⟨0, by decide, rfl, by decide, fun _ => rfl⟩, by rw [Nat.zero_mul, Nat.zero_mul, Nat.zero_mul]⟩
  by_cases h1 : n = 2 ^ 53
  · subst h1
    refine ⟨2 ^ 52, 1, ⟨1075, by decide, rfl, by decide, fun h => absurd h (by decide)⟩, ?_⟩
    rw [show ((1 : Int) + (1074 : Nat)).toNat = 1 + 1074 from rfl, Nat.pow_add 2 1 1074, Nat.mul_one, ← Nat.mul_assoc, ← Nat.pow_succ]
  · have hlog : n.log2 < 53 := (Nat.log2_lt h0).2 (by omega)
    have hlo : 2 ^ n.log2 ≤ n := Nat.log2_self_le h0
    have hhi : n < 2 ^ (n.log2 + 1) := Nat.lt_log2_self
    generalize n.log2 = k at *
    refine ⟨n * 2 ^ (52 - k), (k : Int) - 52, ⟨k + 1022, by omega, by omega, ?_, fun h => ?_⟩, ?_⟩
    · have := Nat.mul_lt_mul_of_pos_right hhi (two_pow_pos (52 - k))
      rw [← Nat.pow_add, show k + 1 + (52 - k) = 52 + 1 by omega] at this
      exact this
    · have := Nat.mul_le_mul_right (2 ^ (52 - k)) hlo
      rw [← Nat.pow_add, show k + (52 - k) = 52 by omega] at this
      omega
    · rw [Nat.mul_one, Nat.mul_assoc, ← Nat.pow_add, show 52 - k + ((k : Int) - 52 + (1074 : Nat)).toNat = 1074 by omega]

theorem round_nat (n : Nat) (h : n ≤ 2 ^ 53) : ∃ m e, round 11 52 n 1 = some (m, e) ∧ GoFloat.truncMag m e = n ∧ n * 2 ^ (-e).toNat = m * 2 ^ e.toNat := by
  obtain ⟨m, e, h1, h2⟩ := exact_nat n h
  refine ⟨m, e, round_exact (by decide) h1 h2, ?_⟩
  obtain ⟨j, -, rfl, -, -⟩ := h1
  have hl : lowest 11 52 = 1074 := rfl
  rw [hl] at h2 ⊢
  rw [Int.sub_add_cancel, Int.toNat_natCast, Nat.mul_one] at h2
  unfold GoFloat.truncMag
  rcases Nat.lt_or_ge j 1074 with hj | hj
  · rw [show 1074 = 1074 - j + j by omega, Nat.pow_add, ← Nat.mul_assoc] at h2
    have h3 := Nat.eq_of_mul_eq_mul_right (two_pow_pos j) h2
    rw [if_neg (by omega), show (-((j : Int) - (1074 : Nat))).toNat = 1074 - j by omega, ← h3,
      show ((j : Int) - (1074 : Nat)).toNat = 0 by omega, Nat.pow_zero, Nat.mul_one]
    exact ⟨Nat.mul_div_cancel _ (two_pow_pos _), rfl⟩
  · rw [show j = j - 1074 + 1074 by omega, Nat.pow_add, ← Nat.mul_assoc] at h2
    have h3 := Nat.eq_of_mul_eq_mul_right (two_pow_pos 1074) h2
    rw [if_pos (by omega), show ((j : Int) - (1074 : Nat)).toNat = j - 1074 by omega, ← h3,
      show (-((j : Int) - (1074 : Nat))).toNat = 0 by omega, Nat.pow_zero, Nat.mul_one]
    exact ⟨rfl, rfl⟩

/-- Numbers below 2^1023 have a nearest float. -/
theorem round_small (num den : Nat) (hd : 0 < den) (h : num < 2 ^ 1023 * den) : ∃ p, round 11 52 num den = some p := by
  cases hr : round 11 52 num den with
  | some p => exact ⟨p, rfl⟩
  | none =>
    exfalso
    rw [round_none hd (by decide), large64] at hr
    have h1 : 2 ^ 1023 ≤ 2 ^ 1024 - 2 ^ 970 := by
      rw [Nat.pow_succ 2 1023]
      have : 2 ^ 970 ≤ 2 ^ 1023 := Nat.pow_le_pow_right (by decide) (by decide)
      generalize 2 ^ 970 = x at *
      generalize 2 ^ 1023 = y at *
      omega
    have := Nat.mul_le_mul_right den h1
    generalize 2 ^ 1023 * den = y at *
    exact absurd h (Nat.not_lt.2 (Nat.le_trans this hr))

theorem round_word (n : Nat) (h : n < 2 ^ 64) : ∃ m e, round 11 52 n 1 = some (m, e) := by
  obtain ⟨⟨m, e⟩, hp⟩ := round_small n 1 (by decide) (Nat.lt_of_lt_of_le h (by rw [Nat.mul_one]; exact Nat.pow_le_pow_right (by decide) (by decide)))
  exact ⟨m, e, hp⟩

/-- The decimals of a `float32` have a nearest `float64`. -/
theorem round_32 (num den : Nat) (hd : 0 < den) (p : Nat × Int) (h : round 8 23 num den = some p) : ∃ p, round 11 52 num den = some p := by
  have h1 : ¬ round 8 23 num den = none := by rw [h]; simp
  rw [round_none hd (by decide)] at h1
  have hl : lowest 8 23 = 149 := rfl
  have hm : 2 ^ 8 - 3 = 253 := rfl
  rw [hl, hm] at h1
  refine round_small num den hd ?_
  have h2 : 2 * (num * 2 ^ 149) < 2 ^ (23 + 2) * (den * 2 ^ 253) :=
    Nat.lt_of_lt_of_le (Nat.lt_of_not_le h1) (Nat.mul_le_mul_right _ (by omega))
  have h3 : num * 2 ^ 150 < 2 ^ 1023 * den * 2 ^ 150 := by
    have e1 : 2 * (num * 2 ^ 149) = num * 2 ^ 150 := by rw [Nat.pow_succ 2 149]; generalize 2 ^ 149 = x; ac_rfl
    have e2 : 2 ^ (23 + 2) * (den * 2 ^ 253) = 2 ^ 278 * den := by
      rw [show (278 : Nat) = 23 + 2 + 253 from rfl, Nat.pow_add 2 (23 + 2) 253]
      generalize 2 ^ (23 + 2) = x
      generalize 2 ^ 253 = y
      ac_rfl
    have e3 : 2 ^ 1023 * den * 2 ^ 150 = 2 ^ (1023 + 150) * den := by
      rw [Nat.pow_add 2 1023 150]
      generalize 2 ^ 1023 = x
      generalize 2 ^ 150 = y
      ac_rfl
    rw [e1, e2] at h2
    rw [e3]
    exact Nat.lt_of_lt_of_le h2 (Nat.mul_le_mul_right _ (Nat.pow_le_pow_right (by decide) (by decide)))
  exact Nat.lt_of_mul_lt_mul_right h3

theorem f64OfInt_nat (n : Nat) : f64OfInt (n : Int) = f64OfNat n := by
  rw [f64OfInt, Int.natAbs_natCast, f64OfNat, show decide ((n : Int) < 0) = false by rw [decide_eq_false_iff_not]; omega]

end Wamp
