import Verif.Model.Value
/-!
# Decimal numbers and floats

What `strconv.ParseFloat` and `strconv.AppendFloat(…, -1, …)` of the Go standard library do with numbers (go 1.22; `encoding/json` uses them,
see Model/Json).  Not part of the repository; modelled from the documentation: `ParseFloat` gives "the nearest floating-point number rounded using
IEEE754 unbiased rounding" and an error if that is beyond the largest one; precision -1 is "the smallest number of digits necessary such that
ParseFloat will return f exactly", of these the closest.  A format has `eb` exponent bits and `mb` fraction bits: 11 and 52, or 8 and 23.
-/
namespace Wamp.Strconv

/-- The smallest positive float is `2 ^ -lowest`. -/
def lowest (eb mb : Nat) : Nat := 2 ^ (eb - 1) - 2 + mb

/-- `q` or `q + 1`, for `q + r / d`: the nearest, the even one of two. -/
def halfEven (q r d : Nat) : Nat := if 2 * r < d then q else if d < 2 * r then q + 1 else if q % 2 = 0 then q else q + 1

/-- `m` units of `2 ^ s` times the smallest positive float, if not too large. -/
def limited (eb mb m s : Nat) : Option (Nat × Int) := if s ≤ 2 ^ eb - 3 then some (m, (s : Int) - lowest eb mb) else none

/-- The float nearest to `num / den`, as mantissa and exponent. -/
def round (eb mb num den : Nat) : Option (Nat × Int) :=
  let a := num * 2 ^ lowest eb mb
  let s := Nat.log2 (a / den) - mb
  let q := halfEven (a / (den * 2 ^ s)) (a % (den * 2 ^ s)) (den * 2 ^ s)
  if q = 2 ^ (mb + 1) then limited eb mb (2 ^ mb) (s + 1) else limited eb mb q s

/-- The float nearest to `d * 10 ^ t`. -/
def ofDecimal (eb mb : Nat) (d : Nat) (t : Int) : Option (Nat × Int) := round eb mb (d * 10 ^ t.toNat) (10 ^ (-t).toNat)

/-- The number of digits of `num / den` before the decimal point; negative if zeros follow the point. -/
def magnitude (num den : Nat) : Int :=
  if den ≤ num then (Nat.toDigits 10 (num / den)).length else -((Nat.toDigits 10 ((den - 1) / num)).length - 1 : Nat)

/-- Without zeros at the end. -/
def strip : Nat → Nat → Int → Nat × Int
  | 0, d, t => (d, t)
  | n + 1, d, t => if d % 10 = 0 then strip n (d / 10) (t + 1) else (d, t)

/-- `d * 10 ^ t` if the float nearest to it is the given one. -/
def reads (eb mb m : Nat) (e : Int) (d : Nat) (t : Int) : Option (Nat × Int) :=
  let c := strip d d t
  if c.1 ≠ 0 ∧ ofDecimal eb mb c.1 c.2 = some (m, e) then some c else none

/-- The best decimal with `p` digits. -/
def tryDigits (eb mb m : Nat) (e : Int) (p : Nat) : Option (Nat × Int) :=
  let num := m * 2 ^ e.toNat
  let den := 2 ^ (-e).toNat
  let t := magnitude num den - p
  let n := num * 10 ^ (-t).toNat
  let d := den * 10 ^ t.toNat
  let near := halfEven (n / d) (n % d) d
  let far := if near = n / d then n / d + 1 else n / d
  match reads eb mb m e near t with
  | some c => some c
  | none => reads eb mb m e far t

/-- The shortest decimal that is read as the float `m * 2 ^ e`, as digits and exponent.  (17 digits suffice.  That is not needed: if they did not, this would be
the decimal expansion.) -/
def shortest (eb mb m : Nat) (e : Int) : Nat × Int :=
  match (List.range 17).findSome? fun p => tryDigits eb mb m e (p + 1) with
  | some c => c
  | none => if 0 ≤ e then (m * 2 ^ e.toNat, 0) else (m * 5 ^ (-e).toNat, e)

end Wamp.Strconv
