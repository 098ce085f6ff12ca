import Verif.Model.Wire
/-!
# `util.AsFloat64`
-/
namespace Wamp

/-- `util.AsFloat64` (util/util.go:79-105); the conversion of an integer rounds to the nearest `float64`, that of a `float32` is exact.
`int16` is missing from the Go type switch. -/
def asFloat64 : Val → Option GoFloat
  | .f64 f => some f
  | .f32 f => some f
  | .int .i64 v => some (f64OfInt v)
  | .uint .u64 v => some (f64OfNat v)
  | .int .int v => some (f64OfInt v)
  | .int .i8 v => some (f64OfInt v)
  | .int .i32 v => some (f64OfInt v)
  | .uint .uint v => some (f64OfNat v)
  | .uint .u32 v => some (f64OfNat v)
  | .uint .u8 v => some (f64OfNat v)
  | .uint .u16 v => some (f64OfNat v)
  | _ => none

end Wamp
