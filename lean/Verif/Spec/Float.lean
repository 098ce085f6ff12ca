import Verif.Spec.Values
/-!
# What it means that a `float64` is the one nearest to a number
-/
namespace Wamp.Spec
open Wamp

/-- The finite `float64`s `m * 2 ^ e`, without their sign (IEEE 754 binary64): 53 bits, the topmost of which is set unless the exponent is the lowest. -/
def Float64 (m : Nat) (e : Int) : Prop := m < 2 ^ 53 ∧ -1074 ≤ e ∧ e ≤ 971 ∧ (m < 2 ^ 52 → e = -1074)

/-- The distance between `num / den` and `m * 2 ^ e`, as a multiple of `2 ^ -1074 / den`. -/
def gap (num den m : Nat) (e : Int) : Nat := ((num * 2 ^ 1074 : Nat) - (m * 2 ^ (e + 1074).toNat * den : Nat) : Int).natAbs

/-- `m * 2 ^ e` is the `float64` nearest to `num / den`, the one with an even mantissa of two that are equally near.  From halfway between the largest `float64` and
`2 ^ 1024` on there is none. -/
def Nearest64 (num den m : Nat) (e : Int) : Prop :=
  Float64 m e ∧ num < (2 ^ 1024 - 2 ^ 970) * den ∧
    ∀ m' e', Float64 m' e' → gap num den m e ≤ gap num den m' e' ∧ (gap num den m e = gap num den m' e' → (m' = m ∧ e' = e) ∨ m % 2 = 0)

/-- The finite `float32`s (binary32). -/
def Float32 (m : Nat) (e : Int) : Prop := m < 2 ^ 24 ∧ -149 ≤ e ∧ e ≤ 104 ∧ (m < 2 ^ 23 → e = -149)

/-- The distance between `num / den` and `m * 2 ^ e`, as a multiple of `2 ^ -149 / den`. -/
def gap32 (num den m : Nat) (e : Int) : Nat := ((num * 2 ^ 149 : Nat) - (m * 2 ^ (e + 149).toNat * den : Nat) : Int).natAbs

/-- `m * 2 ^ e` is the `float32` nearest to `num / den`, the one with an even mantissa of two that are equally near. -/
def Nearest32 (num den m : Nat) (e : Int) : Prop :=
  Float32 m e ∧ num < (2 ^ 128 - 2 ^ 103) * den ∧
    ∀ m' e', Float32 m' e' → gap32 num den m e ≤ gap32 num den m' e' ∧ (gap32 num den m e = gap32 num den m' e' → (m' = m ∧ e' = e) ∨ m % 2 = 0)

/-- `f` is the `float64` nearest to the integer. -/
def NearestFloat (n : Int) (f : GoFloat) : Prop := ∃ m e, f = .fin (decide (n < 0)) m e ∧ Nearest64 n.natAbs 1 m e

/-- `f` has the value `n`. -/
def HasValue (n : Int) (f : GoFloat) : Prop := ∃ m e, f = .fin (decide (n < 0)) m e ∧ n.natAbs * 2 ^ (-e).toNat = m * 2 ^ e.toNat

/-! ## Decimals -/

/-- The distance between the decimal `d * 10 ^ t` and the float `m * 2 ^ e`, in some unit that is the same for all decimals: what matters is only which of two is larger.
The unit suits if `0 ≤ t + unit`. -/
def away (unit : Nat) (m : Nat) (e : Int) (d : Nat) (t : Int) : Nat :=
  ((d * 10 ^ (t + unit).toNat * 2 ^ (-e).toNat : Nat) - (m * 2 ^ e.toNat * 10 ^ unit : Nat) : Int).natAbs

/-- Among all decimals that are good for `m * 2 ^ e`, `d * 10 ^ t` has the fewest digits; and of those with as few digits none is nearer. -/
def Shortest (Good : Nat → Int → Prop) (m : Nat) (e : Int) (d : Nat) (t : Int) : Prop :=
  Good d t ∧ ∀ a b p, 0 < a → Good a b → a < 10 ^ p →
    d < 10 ^ p ∧ (10 ^ (p - 1) ≤ d → ∀ unit : Nat, 0 ≤ t + unit → 0 ≤ b + unit → away unit m e d t ≤ away unit m e a b)

end Wamp.Spec
