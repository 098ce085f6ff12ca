import Verif.Model.Float
import Verif.Spec.Float
import Verif.Lemmas.Float
/-!
# C88: `AsFloat64`
-/
namespace Wamp
open Spec

/-- **C88 is false** for `int16`: `AsFloat64` rejects every value of that type. -/
theorem C88_int16_rejected (n : Int) : asFloat64 (.int .i16 n) = none := rfl

example : IsGoInt (.int .i16 300) 300 := Or.inl ⟨.i16, rfl, by decide⟩

theorem nearest_int (n : Int) (h : n.natAbs < 2 ^ 64) : NearestFloat n (f64OfInt n) := by
  obtain ⟨m, e, hr⟩ := round_word n.natAbs h
  refine ⟨m, e, ?_, (Strconv.round_iff (by decide)).1 hr⟩
  rw [f64OfInt, hr]
  rfl

theorem value_int (n : Int) (h : n.natAbs ≤ 2 ^ 53) : HasValue n (f64OfInt n) := by
  obtain ⟨m, e, hr, -, hv⟩ := round_nat n.natAbs h
  refine ⟨m, e, ?_, hv⟩
  rw [f64OfInt, hr]
  rfl

/-- **C88** (partial) `AsFloat64` turns every value of every Go integer type other than `int16` into the `float64` nearest to it, exactly
up to `2^53`; it returns floats unchanged, and rejects everything that is not a number.  Missing: `int16`. -/
theorem C88_asFloat64_partial :
    (∀ v n, IsGoInt v n → (∀ x, v ≠ .int .i16 x) → ∃ f, asFloat64 v = some f ∧ NearestFloat n f ∧ (n.natAbs ≤ 2 ^ 53 → HasValue n f)) ∧
    (∀ v f, IsGoFloat v f → asFloat64 v = some f) ∧
    (∀ v, NotNumber v → asFloat64 v = none) := by
  refine ⟨?_, ?_, ?_⟩
  · rintro v n (⟨k, rfl, h⟩ | ⟨k, m, rfl, rfl, h⟩) h16
    · have hb : n.natAbs < 2 ^ 64 := by obtain ⟨h1, h2⟩ := h; cases k <;> simp only [ibits] at h1 h2 <;> omega
      cases k
      case i16 => exact absurd rfl (h16 n)
      all_goals exact ⟨_, rfl, nearest_int n hb, value_int n⟩
    · have hb : (m : Int).natAbs < 2 ^ 64 := by cases k <;> simp only [ubits] at h <;> omega
      have h1 := nearest_int m hb
      have h2 := value_int m
      rw [f64OfInt_nat] at h1 h2
      cases k <;> exact ⟨_, rfl, h1, h2⟩
  · rintro v f (rfl | rfl) <;> rfl
  · rintro v ⟨-, hf, h1, h2⟩
    cases v with
    | int k n => exact absurd rfl (h1 k n)
    | uint k n => exact absurd rfl (h2 k n)
    | f32 f => exact absurd (Or.inl rfl) (hf f)
    | f64 f => exact absurd (Or.inr rfl) (hf f)
    | _ => rfl

/-- Values: 2^53 + 1 is rounded, to the even neighbour. -/
example : IsGoInt (.uint .u64 (2 ^ 53 + 1)) (2 ^ 53 + 1) ∧ asFloat64 (.uint .u64 (2 ^ 53 + 1)) = some (.fin false (2 ^ 52) 1) ∧
    asFloat64 (.int .i64 (-(2 ^ 53 + 3))) = some (.fin true (2 ^ 52 + 2) 1) :=
  ⟨Or.inr ⟨.u64, 2 ^ 53 + 1, rfl, by decide⟩, by decide +kernel, by decide +kernel⟩

end Wamp
