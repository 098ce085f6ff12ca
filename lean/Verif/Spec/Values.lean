import Verif.Model.Value
/-!
# What Go numbers mean

Independent of the conversion functions under test.
-/
namespace Wamp.Spec
open Wamp

/-- Bit width of the signed integer types (64-bit platform). -/
def ibits : IK → Nat | .int => 64 | .i8 => 8 | .i16 => 16 | .i32 => 32 | .i64 => 64
/-- Bit width of the unsigned integer types. -/
def ubits : UK → Nat | .uint => 64 | .u8 => 8 | .u16 => 16 | .u32 => 32 | .u64 => 64

/-- `v` is a value of a Go integer type and its mathematical value is `n`. -/
def IsGoInt (v : Val) (n : Int) : Prop :=
  (∃ k, v = .int k n ∧ -(2 ^ (ibits k - 1)) ≤ n ∧ n < 2 ^ (ibits k - 1)) ∨
  (∃ k m, v = .uint k m ∧ n = (m : Int) ∧ m < 2 ^ ubits k)

/-- `v` is a float32 or float64 with value `f`. -/
def IsGoFloat (v : Val) (f : GoFloat) : Prop := v = .f32 f ∨ v = .f64 f

/-- `v` is of no numeric type. -/
def NotNumber (v : Val) : Prop := (∀ n, ¬ IsGoInt v n) ∧ (∀ f, ¬ IsGoFloat v f) ∧
  (∀ k n, v ≠ .int k n) ∧ (∀ k n, v ≠ .uint k n)

/-- The integer `t` is the number `(-1)^neg * m * 2^e` with its fractional part cut off. -/
def IsTrunc (neg : Bool) (m : Nat) (e : Int) (t : Int) : Prop :=
  ∃ a : Nat, t = (if neg then -(a : Int) else (a : Int)) ∧
    ((0 ≤ e ∧ a = m * 2 ^ e.toNat) ∨
     (e < 0 ∧ a * 2 ^ (-e).toNat ≤ m ∧ m < (a + 1) * 2 ^ (-e).toNat))

end Wamp.Spec
