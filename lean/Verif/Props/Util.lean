import Verif.Model.Util
import Verif.Spec.Values
/-!
# C09, C10: numeric conversions
-/
namespace Wamp
open Spec

/-- **C09** (refuted) `AsUInt64` rejects every value of type `int16`. -/
theorem C09_int16_rejected (n : Int) : asUInt64 (.int .i16 n) = none := rfl

example : IsGoInt (.int .i16 300) 300 := Or.inl ⟨.i16, rfl, by decide⟩

/-- **C09** (partial) Every non-negative value of every Go integer type other than `int16` keeps its value, and
every non-number is rejected. Missing: `int16`. -/
theorem C09_asUInt64_partial :
    (∀ v n, IsGoInt v n → 0 ≤ n → (∀ m, v ≠ .int .i16 m) → asUInt64 v = some n.toNat) ∧
    (∀ v, NotNumber v → asUInt64 v = none) := by
  constructor
  · rintro v n (⟨k, rfl, h1, h2⟩ | ⟨k, m, rfl, rfl, h⟩) h0 h16
    · cases k
      case i16 => exact absurd rfl (h16 n)
      all_goals
        simp only [asUInt64, Option.some.injEq]
        simp only [ibits] at h1 h2
        congr 1
        apply Int.emod_eq_of_lt h0
        refine Int.lt_of_lt_of_le h2 (by decide)
    · cases k <;> simp [asUInt64]
  · rintro v ⟨-, hf, h1, h2⟩
    cases v with
    | int k n => exact absurd rfl (h1 k n)
    | uint k n => exact absurd rfl (h2 k n)
    | f32 f => exact absurd (Or.inl rfl) (hf f)
    | f64 f => exact absurd (Or.inr rfl) (hf f)
    | _ => rfl

example : IsGoInt (.int .i32 70000) 70000 ∧ asUInt64 (.int .i32 70000) = some 70000 :=
  ⟨Or.inl ⟨.i32, rfl, by decide⟩, rfl⟩
example : NotNumber (.str (str "7")) := by simp [NotNumber, IsGoInt, IsGoFloat]

/-- A negative identifier is not rejected: it is read as a number above `2^63`. -/
theorem asUInt64_negative (n : Int) (h1 : -(2 ^ 63) ≤ n) (h2 : n < 0) :
    asUInt64 (.int .i64 n) = some (n + 2 ^ 64).toNat := by
  simp only [asUInt64, Option.some.injEq]
  congr 1
  omega

theorem truncMag_spec (neg : Bool) (m : Nat) (e : Int) :
    IsTrunc neg m e (if neg then -(GoFloat.truncMag m e : Int) else (GoFloat.truncMag m e : Int)) := by
  refine ⟨GoFloat.truncMag m e, rfl, ?_⟩
  unfold GoFloat.truncMag
  split
  · exact Or.inl ⟨by assumption, rfl⟩
  · refine Or.inr ⟨by omega, ?_, ?_⟩
    · exact Nat.div_mul_le_self _ _
    · have hp : 0 < 2 ^ (-e).toNat := Nat.pow_pos (by decide)
      have := Nat.lt_div_mul_add hp (a := m)
      rw [Nat.add_mul, Nat.one_mul]
      omega

theorem truncMag_unique {neg : Bool} {m : Nat} {e t : Int} (h : IsTrunc neg m e t) :
    t = (if neg then -(GoFloat.truncMag m e : Int) else (GoFloat.truncMag m e : Int)) := by
  obtain ⟨a, rfl, h⟩ := h
  have : a = GoFloat.truncMag m e := by
    unfold GoFloat.truncMag
    rcases h with ⟨h0, ha⟩ | ⟨h0, h1, h2⟩
    · rw [if_pos h0, ha]
    · rw [if_neg (by omega)]
      have hp : 0 < 2 ^ (-e).toNat := Nat.pow_pos (by decide)
      symm
      rw [Nat.div_eq_iff hp]
      constructor
      · omega
      · rw [Nat.add_mul, Nat.one_mul] at h2
        omega
  rw [this]

/-- **C10** `AsInt`: every value of every Go integer type is returned unchanged when it fits an `int` and refused
otherwise; every finite float whose integer part lies between `-2^63` and `2^63`, the latter excluded, is cut off toward zero (a float of the
size `2^63` has no fraction); NaN, infinities and floats whose integer part lies further out are refused; every non-number is refused. -/
theorem C10_asInt :
    (∀ v n, IsGoInt v n → asInt v = if -(2 ^ 63) ≤ n ∧ n < 2 ^ 63 then some n else none) ∧
    (∀ v neg m e t, IsGoFloat v (.fin neg m e) → IsTrunc neg m e t → (-(2 ^ 63) < t ∨ t = -(2 ^ 63) ∧ 0 ≤ e) →
        t < 2 ^ 63 → asInt v = some t) ∧
    (∀ v neg m e t, IsGoFloat v (.fin neg m e) → IsTrunc neg m e t → t < -(2 ^ 63) ∨ 2 ^ 63 < t → asInt v = none) ∧
    (∀ v, IsGoFloat v .nan ∨ IsGoFloat v (.inf true) ∨ IsGoFloat v (.inf false) → asInt v = none) ∧
    (∀ v, NotNumber v → asInt v = none) := by
  refine ⟨?_, ?_, ?_, ?_, ?_⟩
  · rintro v n (⟨k, rfl, h1, h2⟩ | ⟨k, m, rfl, rfl, h⟩)
    · cases k <;> simp only [ibits] at h1 h2 <;> simp only [asInt]
      all_goals try (split <;> first | rfl | omega)
      · have e : (-(2 ^ 63) ≤ n ∧ n ≤ 2 ^ 63 - 1) ↔ (-(2 ^ 63) ≤ n ∧ n < 2 ^ 63) := by omega
        simp only [e]
    · cases k <;> simp only [ubits] at h <;> simp only [asInt]
      all_goals (split <;> (try split) <;> first | rfl | omega)
  · intro v neg m e t hv ht h1 h2
    have hu := truncMag_unique ht
    have hmag : GoFloat.truncMag m e < 2 ^ 63 ∨ GoFloat.truncMag m e = 2 ^ 63 ∧ 0 ≤ e := by
      cases neg <;> simp at hu <;> omega
    have hr : GoFloat.magLe m e (2 ^ 63) = true := by
      unfold GoFloat.magLe
      unfold GoFloat.truncMag at hmag
      split
      · rename_i h; rw [if_pos h] at hmag
        exact decide_eq_true (by omega)
      · rename_i h; rw [if_neg h] at hmag
        refine decide_eq_true ?_
        have hp : 0 < 2 ^ (-e).toNat := Nat.pow_pos (by decide)
        exact Nat.le_of_lt ((Nat.div_lt_iff_lt_mul hp).1 (hmag.resolve_right fun c => h c.2))
    have hi : (GoFloat.fin neg m e).toInt = t := by
      simp only [GoFloat.toInt]
      rw [← hu, if_pos ⟨by omega, h2⟩]
    rcases hv with rfl | rfl <;> simp only [asInt, GoFloat.inIntRange, hr, if_true, hi]
  · intro v neg m e t hv ht h1
    have hu := truncMag_unique ht
    have hmag : 2 ^ 63 < GoFloat.truncMag m e := by
      cases neg <;> simp at hu <;> omega
    have hr : GoFloat.magLe m e (2 ^ 63) = false := by
      unfold GoFloat.magLe
      unfold GoFloat.truncMag at hmag
      split
      · rename_i h; rw [if_pos h] at hmag
        exact decide_eq_false (by omega)
      · rename_i h; rw [if_neg h] at hmag
        refine decide_eq_false fun c => ?_
        have hp : 0 < 2 ^ (-e).toNat := Nat.pow_pos (by decide)
        have := Nat.div_le_of_le_mul (show m ≤ 2 ^ (-e).toNat * 2 ^ 63 by rw [Nat.mul_comm]; exact c)
        omega
    rcases hv with rfl | rfl <;> simp only [asInt, GoFloat.inIntRange, hr, Bool.false_eq_true, if_false]
  · rintro v ((rfl | rfl) | (rfl | rfl) | (rfl | rfl)) <;> rfl
  · rintro v ⟨-, hf, h1, h2⟩
    cases v with
    | int k n => exact absurd rfl (h1 k n)
    | uint k n => exact absurd rfl (h2 k n)
    | f32 f => exact absurd (Or.inl rfl) (hf f)
    | f64 f => exact absurd (Or.inr rfl) (hf f)
    | _ => rfl

/-- -3.75 is cut off to -3; `-2^63` is returned, `2^64` as a float is refused; `uint64` 2^63 is refused. -/
example : IsTrunc true 15 (-2) (-3) ∧ asInt (.f64 (.fin true 15 (-2))) = some (-3) := by
  refine ⟨⟨3, rfl, Or.inr ?_⟩, ?_⟩ <;> decide
example : IsTrunc true 1 63 (-(2 ^ 63)) ∧ asInt (.f64 (.fin true 1 63)) = some (-(2 ^ 63)) :=
  ⟨⟨2 ^ 63, rfl, Or.inl ⟨by decide, by decide⟩⟩, by decide⟩
example : IsTrunc false 1 64 (2 ^ 64) ∧ asInt (.f64 (.fin false 1 64)) = none := ⟨⟨2 ^ 64, rfl, Or.inl ⟨by decide, by decide⟩⟩, by decide⟩
example : IsGoInt (.uint .u64 (2 ^ 63)) (2 ^ 63) ∧ asInt (.uint .u64 (2 ^ 63)) = none :=
  ⟨Or.inr ⟨.u64, 2 ^ 63, rfl, by decide⟩, by decide⟩

/-- The float `2^63` does not fit an `int` but passes the range check, because `float64(MaxInt)` rounds up to it:
`AsInt` reports success with whatever the platform's conversion gives. -/
theorem asInt_float_2_63 : asInt (.f64 (.fin false 1 63)) = some (unspecifiedInt (.fin false 1 63)) := by
  have h1 : (GoFloat.fin false 1 63).inIntRange = true := by decide
  have h2 : (GoFloat.fin false 1 63).toInt = unspecifiedInt (.fin false 1 63) := by
    simp only [GoFloat.toInt]
    rw [if_neg (by decide)]
  simp only [asInt, h1, h2, if_true]

end Wamp
