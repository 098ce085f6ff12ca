import Verif.Model.Value
/-!
# `util/util.go`
-/
namespace Wamp

/-- Magnitude of a finite float truncated toward zero. -/
def GoFloat.truncMag (m : Nat) (e : Int) : Nat :=
  if 0 ≤ e then m * 2 ^ e.toNat else m / 2 ^ (-e).toNat

/-- Result of Go's float-to-integer conversion where the language leaves it implementation-dependent
(NaN, infinities, out-of-range values).  Left opaque: no theorem can depend on its value. -/
opaque unspecifiedU64 : GoFloat → Nat
/-- As `unspecifiedU64`, for conversion to `int`. -/
opaque unspecifiedInt : GoFloat → Int

/-- Go conversion `uint64(f)`. -/
def GoFloat.toU64 (f : GoFloat) : Nat :=
  match f with
  | .fin neg m e =>
    let t := GoFloat.truncMag m e
    if t = 0 then 0
    else if !neg && t < 2 ^ 64 then t
    else unspecifiedU64 f
  | _ => unspecifiedU64 f

/-- Go conversion `int(f)` on a 64-bit platform. -/
def GoFloat.toInt (f : GoFloat) : Int :=
  match f with
  | .fin neg m e =>
    let t : Int := (GoFloat.truncMag m e : Int)
    let v := if neg then -t else t
    if -(2 ^ 63) ≤ v ∧ v < 2 ^ 63 then v else unspecifiedInt f
  | _ => unspecifiedInt f

/-- Magnitude comparison `m * 2^e ≤ n`. -/
def GoFloat.magLe (m : Nat) (e : Int) (n : Nat) : Bool :=
  if 0 ≤ e then decide (m * 2 ^ e.toNat ≤ n) else decide (m ≤ n * 2 ^ (-e).toNat)

/-- `v >= float(intMin) && v <= float(intMax)`: both bounds are `±2^63` after rounding to a float
(util/util.go:39, 43). Comparisons with NaN are false. -/
def GoFloat.inIntRange : GoFloat → Bool
  | .fin _ m e => GoFloat.magLe m e (2 ^ 63)
  | _ => false

/-- `util.AsUInt64` (util/util.go:50-77).  `int16` is missing from the Go type switch. -/
def asUInt64 : Val → Option Nat
  | .int .i64 v => some (v % 2 ^ 64).toNat
  | .uint .u64 v => some v
  | .uint .u8 v => some v
  | .int .int v => some (v % 2 ^ 64).toNat
  | .int .i8 v => some (v % 2 ^ 64).toNat
  | .int .i32 v => some (v % 2 ^ 64).toNat
  | .uint .uint v => some v
  | .uint .u16 v => some v
  | .uint .u32 v => some v
  | .f64 f => some f.toU64
  | .f32 f => some f.toU64
  | _ => none

/-- `util.AsInt` (util/util.go:9-48), 64-bit platform (`intMax = 2^63-1`). -/
def asInt : Val → Option Int
  | .int .int v => some v
  | .int .i8 v => some v
  | .int .i16 v => some v
  | .int .i32 v => some v
  | .int .i64 v => if -(2 ^ 63) ≤ v ∧ v ≤ 2 ^ 63 - 1 then some v else none
  | .uint .uint v => if v ≤ 2 ^ 63 - 1 then some v else none
  | .uint .u8 v => some v
  | .uint .u16 v => some v
  | .uint .u32 v => some v
  | .uint .u64 v => if v ≤ 2 ^ 63 - 1 then some v else none
  | .f32 f => if f.inIntRange then some f.toInt else none
  | .f64 f => if f.inIntRange then some f.toInt else none
  | _ => none

/-- `util.AnysToStrings` (util/util.go:127-137): the first non-string makes the whole call fail. -/
def anysToStrings : List Val → Option (List Str)
  | [] => some []
  | v :: rest =>
    match v.asStr? with
    | none => none
    | some s => (anysToStrings rest).map (fun r => s :: r)

end Wamp
