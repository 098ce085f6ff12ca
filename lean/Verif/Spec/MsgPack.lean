import Verif.Model.MsgPack
import Verif.Spec.Cbor
/-!
# Which content the MsgPack library carries

Every value Go can hold in the types of the model, with lengths of 32 bits: integers in the range of their type, floats of the formats, maps
as Go maps are (every key once; the model keeps them sorted).  Text may be any bytes, nesting any depth.
-/
namespace Wamp.MsgPack
open Wamp Wamp.Cbor

/-- Values of a signed Go integer type. -/
def inRange : IK → Int → Bool
  | .int, v => decide (-2 ^ 63 ≤ v ∧ v < 2 ^ 63)
  | .i8, v => decide (-2 ^ 7 ≤ v ∧ v < 2 ^ 7)
  | .i16, v => decide (-2 ^ 15 ≤ v ∧ v < 2 ^ 15)
  | .i32, v => decide (-2 ^ 31 ≤ v ∧ v < 2 ^ 31)
  | .i64, v => decide (-2 ^ 63 ≤ v ∧ v < 2 ^ 63)

/-- Values of an unsigned Go integer type. -/
def inURange : UK → Nat → Bool
  | .uint, n => decide (n < 2 ^ 64)
  | .u8, n => decide (n < 2 ^ 8)
  | .u16, n => decide (n < 2 ^ 16)
  | .u32, n => decide (n < 2 ^ 32)
  | .u64, n => decide (n < 2 ^ 64)

/-- A length that can be written. -/
def short (n : Nat) : Bool := decide (n < 2 ^ 32)

mutual
/-- The value survives. -/
def fits : Val → Bool
  | .int k v => inRange k v
  | .uint k n => inURange k n
  | .f32 f => isFloat 8 23 f
  | .f64 f => isFloat 11 52 f
  | .str s => short s.length
  | .named s => short s.length
  | .bytes b => short b.length
  | .arr l => short l.length && fitsL l
  | .strs l => short l.length && l.all fun s => short s.length
  | .map d => short d.length && sortedKeys d && fitsM d
  | .other _ => false
  | _ => true
/-- All elements survive. -/
def fitsL : List Val → Bool
  | [] => true
  | v :: rest => fits v && fitsL rest
/-- All keys and values survive. -/
def fitsM : List (Str × Val) → Bool
  | [] => true
  | (k, v) :: rest => short k.length && fits v && fitsM rest
end

/-- A message body that survives. -/
def Fits (l : List Val) : Prop := fits (.arr l) = true

end Wamp.MsgPack
