import Verif.Model.Base
/-!
# Dynamic Go values (`any`)

One constructor for every dynamic type that the code, or the decoders it uses, distinguish.
-/
namespace Wamp

/-- Signed Go integer types. -/
inductive IK where
  | int | i8 | i16 | i32 | i64
  deriving DecidableEq, Repr

/-- Unsigned Go integer types. -/
inductive UK where
  | uint | u8 | u16 | u32 | u64
  deriving DecidableEq, Repr

/-- A binary floating point value: `fin neg m e` is `(-1)^neg * m * 2^e`. -/
inductive GoFloat where
  | fin (neg : Bool) (m : Nat) (e : Int)
  | inf (neg : Bool)
  | nan
  deriving DecidableEq, Repr, Inhabited

/-- A Go value of static type `any`.  `arrNil`/`mapNil`/`strsNil` are interface values holding a nil slice or
map of the given type (different from the nil interface `nil`).  `named` is a value of the named
string type `auth.Method` (auth/authenticator.go:9), which a type assertion to `string` rejects.
`other` stands for a value of any type the code never asks for. -/
inductive Val where
  | nil
  | bool (b : Bool)
  | int (k : IK) (v : Int)
  | uint (k : UK) (v : Nat)
  | f32 (f : GoFloat)
  | f64 (f : GoFloat)
  | str (s : Str)
  | named (s : Str)
  | bytes (b : Str)
  | arr (l : List Val)
  | arrNil
  | strs (l : List Str)
  | strsNil
  | map (m : List (Str × Val))
  | mapNil
  | other (tag : Nat)
  deriving Repr

/-- Entries of a Go `map[string]any`. Kept sorted by key by `dset`, so that equal maps are equal lists. -/
abbrev Dict := List (Str × Val)
/-- Static type `map[string]any`; `none` is the nil map. -/
abbrev GoMap := Option Dict
/-- Static type `[]any`; `none` is the nil slice. -/
abbrev GoSlice := Option (List Val)

/-- Byte-wise lexicographic order of strings. -/
def strLt : Str → Str → Bool
  | [], [] => false
  | [], _ :: _ => true
  | _ :: _, [] => false
  | a :: as, b :: bs => if a < b then true else if a = b then strLt as bs else false

/-- `m[k]` on the entries of a map. -/
def dget : Dict → Str → Option Val
  | [], _ => none
  | (k', v) :: rest, k => if k = k' then some v else dget rest k

/-- `m[k] = v`, keeping the entries sorted. -/
def dset : Dict → Str → Val → Dict
  | [], k, v => [(k, v)]
  | (k', v') :: rest, k, v =>
    if k = k' then (k, v) :: rest
    else if strLt k k' then (k, v) :: (k', v') :: rest
    else (k', v') :: dset rest k v

/-- `m[k]` where `m` may be the nil map (reading a nil map is allowed in Go and finds nothing). -/
def GoMap.get (m : GoMap) (k : Str) : Option Val :=
  match m with
  | none => none
  | some d => dget d k

/-- A `map[string]any` stored in an interface. -/
def Val.ofMap : GoMap → Val
  | none => .mapNil
  | some d => .map d

/-- A `[]any` stored in an interface. -/
def Val.ofSlice : GoSlice → Val
  | none => .arrNil
  | some l => .arr l

/-- A `[]string` stored in an interface. -/
def Val.ofStrs : Option (List Str) → Val
  | none => .strsNil
  | some l => .strs l

/-- A `uint64` stored in an interface. -/
abbrev Val.u64 (n : Nat) : Val := .uint .u64 n

/-- `v.(string)` with the comma-ok form; also `util.AsString` (util/util.go:117-120). -/
def Val.asStr? : Val → Option Str
  | .str s => some s
  | _ => none

/-- `v.(bool)` with the comma-ok form; also `util.AsBool` (util/util.go:107-110). -/
def Val.asBool? : Val → Option Bool
  | .bool b => some b
  | _ => none

/-- `v.([]any)` with the comma-ok form: the nil slice of that type passes. -/
def Val.asSlice? : Val → Option GoSlice
  | .arr l => some (some l)
  | .arrNil => some none
  | _ => none

/-- `v.(map[string]any)` with the comma-ok form: the nil map of that type passes. -/
def Val.asMap? : Val → Option GoMap
  | .map d => some (some d)
  | .mapNil => some none
  | _ => none

/-- `v.([]byte)` with the comma-ok form. -/
def Val.asBytes? : Val → Option Str
  | .bytes b => some b
  | _ => none

/-- `b, _ := m[k].(bool)`: missing or of another type reads as `false`
(dealer.go:220-221, dealer.go:274, session.go:63, session.go:136). -/
def GoMap.flag (m : GoMap) (k : Str) : Bool :=
  ((m.get k).bind Val.asBool?).getD false

/-- `util.ToString(m[k])` (util/util.go:122-125): missing or of another type reads as `""`. -/
def GoMap.text (m : GoMap) (k : Str) : Str :=
  ((m.get k).bind Val.asStr?).getD []

end Wamp
