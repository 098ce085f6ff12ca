import Verif.Model.Cbor
/-!
# Which content the CBOR library carries

Values that can be written and that the receiving side accepts: integers and lengths of 64 bits, UTF-8 text, at most 131072 elements,
limited nesting, floats of the formats, maps as Go maps are (every key once; the model keeps them sorted).
-/
namespace Wamp.Cbor
open Wamp

/-- Keys in increasing order, in particular every key once. -/
def sortedKeys : List (Str × Val) → Bool
  | [] => true
  | p :: rest => rest.all (fun q => strLt p.1 q.1) && sortedKeys rest

/-- Text that can be read back. -/
def text (s : Str) : Bool := validUtf8 s && decide (s.length < 2 ^ 64)

mutual
/-- The value survives when `levels` levels of nesting are allowed. -/
def fits (levels : Nat) : Val → Bool
  | .int _ v => decide (-2 ^ 63 ≤ v ∧ v < 2 ^ 64)
  | .uint _ n => decide (n < 2 ^ 64)
  | .f32 f => isFloat 8 23 f
  | .f64 f => isFloat 11 52 f
  | .str s => text s
  | .named s => text s
  | .bytes b => decide (b.length < 2 ^ 64)
  | .arr l => decide (0 < levels ∧ l.length ≤ 131072) && fitsL (levels - 1) l
  | .strs l => decide (0 < levels ∧ l.length ≤ 131072) && l.all text
  | .map d => decide (0 < levels ∧ d.length ≤ 131072) && sortedKeys d && fitsM (levels - 1) d
  | .other _ => false
  | _ => true
/-- All elements survive. -/
def fitsL (levels : Nat) : List Val → Bool
  | [] => true
  | v :: rest => fits levels v && fitsL levels rest
/-- All keys and values survive. -/
def fitsM (levels : Nat) : List (Str × Val) → Bool
  | [] => true
  | (k, v) :: rest => text k && fits levels v && fitsM levels rest
end

/-- A message body that survives: the outermost list counts as a level. -/
def Fits (l : List Val) : Prop := fits 32 (.arr l) = true

end Wamp.Cbor
