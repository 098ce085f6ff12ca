import Verif.Model.Validator
import Verif.Model.Encoding
import Verif.Model.Strconv
/-!
# Wire formats: what a value becomes after encoding and decoding

The byte level of the JSON, CBOR and MsgPack libraries is not modelled here; what is modelled is how the dynamic Go type
of a value changes on the way (e.g. every JSON number is read back as `float64`).  These tables follow the documented
behaviour of `encoding/json`, `fxamacker/cbor/v2` (with `DefaultMapType: map[string]any`, serializers/cbor.go:18-21)
and `vmihailenco/msgpack/v5` as used in serializers/*.go.
-/
namespace Wamp

mutual
/-- Structure-preserving part: nil slices and maps become null, `[]string` becomes a list of strings, named strings become
strings; scalars are changed by `leaf`. -/
def wire (leaf : Val → Val) : Val → Val
  | .nil => .nil
  | .str s => .str s
  | .named s => .str s
  | .arr l => .arr (wireL leaf l)
  | .arrNil => .nil
  | .strs l => .arr (l.map .str)
  | .strsNil => .nil
  | .map d => .map (wireM leaf d)
  | .mapNil => .nil
  | .bool b => .bool b
  | .int k v => leaf (.int k v)
  | .uint k v => leaf (.uint k v)
  | .f32 f => leaf (.f32 f)
  | .f64 f => leaf (.f64 f)
  | .bytes b => leaf (.bytes b)
  | .other t => leaf (.other t)
/-- `wire` on the elements of a list. -/
def wireL (leaf : Val → Val) : List Val → List Val
  | [] => []
  | v :: rest => wire leaf v :: wireL leaf rest
/-- `wire` on the values of a map. -/
def wireM (leaf : Val → Val) : List (Str × Val) → List (Str × Val)
  | [] => []
  | (k, v) :: rest => (k, wire leaf v) :: wireM leaf rest
end

/-- A float with a sign; infinity if it would be too large. -/
def signedFloat (neg : Bool) : Option (Nat × Int) → GoFloat
  | some (m, e) => .fin neg m e
  | none => .inf neg

/-- The `float64` nearest to a natural number (round half to even): Go's conversion `float64(n)`. -/
def f64OfNat (n : Nat) : GoFloat := signedFloat false (Strconv.round 11 52 n 1)

/-- The `float64` nearest to an integer. -/
def f64OfInt (v : Int) : GoFloat := signedFloat (v < 0) (Strconv.round 11 52 v.natAbs 1)

/-- Reading back the shortest decimal form of a `float32` as `float64`. -/
def jsonF32 : GoFloat → GoFloat
  | .fin neg m e => signedFloat neg (if m = 0 then Strconv.round 11 52 0 1
      else Strconv.ofDecimal 11 52 (Strconv.shortest 8 23 m e).1 (Strconv.shortest 8 23 m e).2)
  | f => f

/-- `encoding/json`: every number is read back as `float64`; `[]byte` is written as a base64 string. -/
def jsonLeaf : Val → Val
  | .int _ v => .f64 (f64OfInt v)
  | .uint _ v => .f64 (f64OfNat v)
  | .f32 f => .f64 (jsonF32 f)
  | .bytes b => .str (b64Encode b)
  | v => v

/-- CBOR: non-negative integers are read back as `uint64`, negative ones as `int64`, floats as `float64`. -/
def cborLeaf : Val → Val
  | .int _ v => if 0 ≤ v then .uint .u64 v.toNat else .int .i64 v
  | .uint _ v => .uint .u64 v
  | .f32 f => .f64 f
  | v => v

/-- MsgPack `EncodeUint` (compact form) and what it is read back as. -/
def msgpackCompactUint (n : Nat) : Val :=
  if n ≤ 127 then .int .i8 n
  else if n ≤ 0xff then .uint .u8 n
  else if n ≤ 0xffff then .uint .u16 n
  else if n ≤ 0xffffffff then .uint .u32 n
  else .uint .u64 n

/-- MsgPack `EncodeInt` (compact form) and what it is read back as. -/
def msgpackCompactInt (v : Int) : Val :=
  if 0 ≤ v then msgpackCompactUint v.toNat
  else if -128 ≤ v then .int .i8 v
  else if -32768 ≤ v then .int .i16 v
  else if -2147483648 ≤ v then .int .i32 v
  else .int .i64 v

/-- MsgPack: `int` and `uint` are written in compact form, the sized integer types keep their type. -/
def msgpackLeaf : Val → Val
  | .int .int v => msgpackCompactInt v
  | .uint .uint v => msgpackCompactUint v
  | v => v

/-- JSON round trip of a value. -/
def jsonWire : Val → Val := wire jsonLeaf
/-- CBOR round trip of a value. -/
def cborWire : Val → Val := wire cborLeaf
/-- MsgPack round trip of a value. -/
def msgpackWire : Val → Val := wire msgpackLeaf

end Wamp
