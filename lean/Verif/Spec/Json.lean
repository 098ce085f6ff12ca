import Verif.Spec.Cbor
import Verif.Model.Json
/-!
# Which content JSON carries
-/
namespace Wamp.Json
open Wamp Wamp.Cbor

/-- The text with U+FFFD for every byte that is not part of UTF-8. -/
def clean : Str → Str
  | [] => []
  | a :: r1 =>
    if a.toNat < 0x80 then a :: clean r1
    else match r1 with
    | [] => replacement
    | b :: r2 =>
      if two a b then a :: b :: clean r2
      else match r2 with
      | [] => replacement ++ clean [b]
      | c :: r3 =>
        if three a b c then a :: b :: c :: clean r3
        else match r3 with
        | [] => replacement ++ clean [b, c]
        | d :: r4 => if four a b c d then a :: b :: c :: d :: clean r4 else replacement ++ clean (b :: c :: d :: r4)

/-- A finite float of the format with `eb` exponent and `mb` fraction bits. -/
def floatFits (eb mb : Nat) : GoFloat → Bool
  | .fin neg m e => isFloat eb mb (.fin neg m e)
  | _ => false

mutual
/-- The value survives when `levels` levels of nesting are allowed: text in UTF-8, finite floats, integers of 64 bits, maps as Go maps are (every key once; the model keeps them sorted). -/
def fits (levels : Nat) : Val → Bool
  | .int _ v => decide (v.natAbs < 2 ^ 64)
  | .uint _ n => decide (n < 2 ^ 64)
  | .f32 f => floatFits 8 23 f
  | .f64 f => floatFits 11 52 f
  | .str s => validUtf8 s
  | .named s => validUtf8 s
  | .arr l => decide (0 < levels) && fitsL (levels - 1) l
  | .strs l => decide (0 < levels) && l.all validUtf8
  | .map d => decide (0 < levels) && sortedKeys d && fitsM (levels - 1) d
  | .other _ => false
  | _ => true
/-- All elements survive. -/
def fitsL (levels : Nat) : List Val → Bool
  | [] => true
  | v :: rest => fits levels v && fitsL levels rest
/-- All keys and values survive. -/
def fitsM (levels : Nat) : List (Str × Val) → Bool
  | [] => true
  | (k, v) :: rest => validUtf8 k && fits levels v && fitsM levels rest
end

/-- A message body that survives: the outermost list counts as a level. -/
def Fits (l : List Val) : Prop := fits 10000 (.arr l) = true

end Wamp.Json
