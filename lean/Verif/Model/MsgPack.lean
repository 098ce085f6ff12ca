import Verif.Model.Cbor
/-!
# MsgPack, byte by byte

`msgpack.Marshal` and `msgpack.Unmarshal` of `vmihailenco/msgpack/v5` as serializers/msgpack.go:13-21 and payload.go:93-109 use them.
The library itself is not part of the repository; this is modelled from the MsgPack specification and the library's documented
behaviour: `int` and `uint` are written in the shortest form, integers of a fixed size and floats in their own size, nil slices and maps
as nil; text is not checked; the last one of equal keys wins; bytes after the value are ignored; nesting is not limited (the stack is).
Simplified: extension types and map keys other than strings are treated as errors.
-/
namespace Wamp.MsgPack
open Wamp Wamp.Cbor

/-- Length prefix: up to `small` in the code itself, else with 8 (if there is such a code), 16 or 32 bits. -/
def lenPrefix (fix small : Nat) (c8 : Option UInt8) (c16 c32 : UInt8) (n : Nat) : Str :=
  if n ≤ small then [UInt8.ofNat (fix + n)]
  else match c8 with
  | some c => if n < 2 ^ 8 then c :: be 1 n else if n < 2 ^ 16 then c16 :: be 2 n else c32 :: be 4 n
  | none => if n < 2 ^ 16 then c16 :: be 2 n else c32 :: be 4 n

/-- `EncodeUint`: the shortest form. -/
def compactUint (n : Nat) : Str :=
  if n ≤ 127 then [UInt8.ofNat n]
  else if n ≤ 0xff then 0xcc :: be 1 n
  else if n ≤ 0xffff then 0xcd :: be 2 n
  else if n ≤ 0xffffffff then 0xce :: be 4 n
  else 0xcf :: be 8 n

/-- Two's complement of `k` bytes. -/
def beInt (k : Nat) (v : Int) : Str := be k (if 0 ≤ v then v.toNat else (v + 256 ^ k).toNat)

/-- `EncodeInt`: the shortest form. -/
def compactInt (v : Int) : Str :=
  if 0 ≤ v then compactUint v.toNat
  else if -32 ≤ v then [UInt8.ofNat (v + 256).toNat]
  else if -128 ≤ v then 0xd0 :: beInt 1 v
  else if -32768 ≤ v then 0xd1 :: beInt 2 v
  else if -2147483648 ≤ v then 0xd2 :: beInt 4 v
  else 0xd3 :: beInt 8 v

/-- Header of a string. -/
def strHead (n : Nat) : Str := lenPrefix 0xa0 31 (some 0xd9) 0xda 0xdb n
/-- Header of a list. -/
def arrHead (n : Nat) : Str := lenPrefix 0x90 15 none 0xdc 0xdd n
/-- Header of a map. -/
def mapHead (n : Nat) : Str := lenPrefix 0x80 15 none 0xde 0xdf n
/-- Header of a byte string. -/
def binHead (n : Nat) : Str := if n < 2 ^ 8 then 0xc4 :: be 1 n else if n < 2 ^ 16 then 0xc5 :: be 2 n else 0xc6 :: be 4 n

/-- The bit pattern of any value of a float format.  Simplified: there is one NaN and one pattern for it; Go has many and sends the one it has. -/
def bitsOf (eb mb : Nat) : GoFloat → Nat
  | .fin neg m e => floatBits eb mb neg m e
  | .inf neg => (if neg then 2 ^ (eb + mb) else 0) + (2 ^ eb - 1) * 2 ^ mb
  | .nan => (2 ^ eb - 1) * 2 ^ mb + 2 ^ (mb - 1)

mutual
/-- `msgpack.Marshal` of a value; `none` is an error.  `order` is the order in which Go happens to walk through a map. -/
def enc (order : List (Str × Str) → List (Str × Str)) : Val → Option Str
  | .nil => some [0xc0]
  | .bool b => some [if b then 0xc3 else 0xc2]
  | .int .int v => some (compactInt v)
  | .int .i8 v => some (0xd0 :: beInt 1 v)
  | .int .i16 v => some (0xd1 :: beInt 2 v)
  | .int .i32 v => some (0xd2 :: beInt 4 v)
  | .int .i64 v => some (0xd3 :: beInt 8 v)
  | .uint .uint n => some (compactUint n)
  | .uint .u8 n => some (0xcc :: be 1 n)
  | .uint .u16 n => some (0xcd :: be 2 n)
  | .uint .u32 n => some (0xce :: be 4 n)
  | .uint .u64 n => some (0xcf :: be 8 n)
  | .f32 f => some (0xca :: be 4 (bitsOf 8 23 f))
  | .f64 f => some (0xcb :: be 8 (bitsOf 11 52 f))
  | .str s => some (strHead s.length ++ s)
  | .named s => some (strHead s.length ++ s)
  | .bytes b => some (binHead b.length ++ b)
  | .arr l => (encL order l).map fun s => arrHead l.length ++ s
  | .arrNil => some [0xc0]
  | .strs l => some (arrHead l.length ++ l.flatMap fun s => strHead s.length ++ s)
  | .strsNil => some [0xc0]
  | .map d => (encM order d).map fun ps => mapHead d.length ++ (order ps).flatMap fun p => strHead p.1.length ++ p.1 ++ p.2
  | .mapNil => some [0xc0]
  | .other _ => none
/-- The elements of a list one after the other. -/
def encL (order : List (Str × Str) → List (Str × Str)) : List Val → Option Str
  | [] => some []
  | v :: rest =>
    match enc order v, encL order rest with
    | some a, some b => some (a ++ b)
    | _, _ => none
/-- The entries of a map with their values encoded. -/
def encM (order : List (Str × Str) → List (Str × Str)) : List (Str × Val) → Option (List (Str × Str))
  | [] => some []
  | (k, v) :: rest =>
    match enc order v, encM order rest with
    | some a, some b => some ((k, a) :: b)
    | _, _ => none
end

/-- A number of `k` bytes. -/
def readNum (k : Nat) (s : Str) : Option (Nat × Str) :=
  match split k s with
  | some (a, s) => some (ofBE a, s)
  | none => none

/-- The signed number with this two's complement of `k` bytes. -/
def signed (k n : Nat) : Int := if n < 2 ^ (8 * k - 1) then n else n - 2 ^ (8 * k)

/-- What a code byte announces. -/
inductive Item where
  | val (v : Val)
  | num (k : Nat) (f : Nat → Val)
  | str (lenBytes len : Nat)
  | bin (lenBytes : Nat)
  | arr (lenBytes len : Nat)
  | map (lenBytes len : Nat)
  | bad

/-- The codes of MsgPack. -/
def item (c : Nat) : Item :=
  if c < 0x80 then .val (.int .i8 c)
  else if c < 0x90 then .map 0 (c - 0x80)
  else if c < 0xa0 then .arr 0 (c - 0x90)
  else if c < 0xc0 then .str 0 (c - 0xa0)
  else if 0xe0 ≤ c then .val (.int .i8 (c - 256))
  else match c with
  | 0xc0 => .val .nil
  | 0xc2 => .val (.bool false)
  | 0xc3 => .val (.bool true)
  | 0xc4 => .bin 1
  | 0xc5 => .bin 2
  | 0xc6 => .bin 4
  | 0xca => .num 4 fun n => .f32 (floatOf 8 23 n)
  | 0xcb => .num 8 fun n => .f64 (floatOf 11 52 n)
  | 0xcc => .num 1 (.uint .u8)
  | 0xcd => .num 2 (.uint .u16)
  | 0xce => .num 4 (.uint .u32)
  | 0xcf => .num 8 (.uint .u64)
  | 0xd0 => .num 1 fun n => .int .i8 (signed 1 n)
  | 0xd1 => .num 2 fun n => .int .i16 (signed 2 n)
  | 0xd2 => .num 4 fun n => .int .i32 (signed 4 n)
  | 0xd3 => .num 8 fun n => .int .i64 (signed 8 n)
  | 0xd9 => .str 1 0
  | 0xda => .str 2 0
  | 0xdb => .str 4 0
  | 0xdc => .arr 2 0
  | 0xdd => .arr 4 0
  | 0xde => .map 2 0
  | 0xdf => .map 4 0
  | _ => .bad

/-- A length: the one in the code byte, or `k` bytes that follow. -/
def readLen (k len : Nat) (s : Str) : Option (Nat × Str) := if k = 0 then some (len, s) else readNum k s

/-- A string. -/
def readText : Str → Option (Str × Str)
  | [] => none
  | c :: s =>
    match item c.toNat with
    | .str k len =>
      match readLen k len s with
      | some (n, s) => split n s
      | none => none
    | _ => none

/-- An entry of a map, its value read by `f`. -/
def readPair (f : Str → Option (Val × Str)) (s : Str) : Option ((Str × Val) × Str) :=
  match readText s with
  | none => none
  | some (k, s) =>
    match f s with
    | none => none
    | some (v, s) => some ((k, v), s)

/-- Decoding one value into an `any`; `fuel` only makes the recursion terminate. -/
def dec (fuel : Nat) : Str → Option (Val × Str)
  | [] => none
  | c :: s =>
    match item c.toNat with
    | .val v => some (v, s)
    | .num k f =>
      match readNum k s with
      | some (n, s) => some (f n, s)
      | none => none
    | .bin k =>
      match readNum k s with
      | some (n, s) =>
        match split n s with
        | some (b, s) => some (.bytes b, s)
        | none => none
      | none => none
    | .str k len =>
      match readLen k len s with
      | some (n, s) =>
        match split n s with
        | some (b, s) => some (.str b, s)
        | none => none
      | none => none
    | .arr k len =>
      match fuel with
      | 0 => none
      | fuel + 1 =>
        match readLen k len s with
        | some (n, s) =>
          match seqOf (dec fuel) n s with
          | some (l, s) => some (.arr l, s)
          | none => none
        | none => none
    | .map k len =>
      match fuel with
      | 0 => none
      | fuel + 1 =>
        match readLen k len s with
        | some (n, s) =>
          match seqOf (readPair (dec fuel)) n s with
          | some (ps, s) => some (.map (ps.foldl (fun d p => dset d p.1 p.2) []), s)
          | none => none
        | none => none
    | .bad => none

/-- `Unmarshal` into a `[]any`: a list, or nil for the nil slice; what follows is ignored.  Every level of nesting takes at least one byte,
so the number of bytes is enough fuel. -/
def decode (s : Str) : Option (List Val) :=
  match dec s.length s with
  | some (.arr l, _) => some l
  | some (.nil, _) => some []
  | _ => none

/-- The MsgPack library as serializers/msgpack.go:13-21 uses it. -/
def codec (order : List (Str × Str) → List (Str × Str)) : Codec where
  enc l := enc order (.arr l)
  dec := decode

end Wamp.MsgPack
