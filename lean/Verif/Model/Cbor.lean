import Verif.Model.Wire
/-!
# CBOR, byte by byte

`cbor.Marshal` and `cborEncoder.Unmarshal` of `fxamacker/cbor/v2` as serializers/cbor.go:18-25 and :27-31 use them: default encoding
options, default decoding options except `DefaultMapType: map[string]any`.  The library itself is not part of the repository; this is
modelled from RFC 8949 and the library's documented defaults: shortest integers, floats in their own width, NaN and infinities as
16-bit floats, nil slices and maps as null; at most 32 nested levels, at most 131072 elements of a list or a map, text must be UTF-8,
last one of equal keys wins, no bytes after the value.
Simplified: map keys other than text and tags around the outermost list are treated as errors; the value of every tagged item is
`other`, whatever the tag.
-/
namespace Wamp.Cbor
open Wamp

/-- `k` bytes, most significant first. -/
def be : Nat → Nat → Str
  | 0, _ => []
  | k + 1, n => UInt8.ofNat (n / 256 ^ k) :: be k (n % 256 ^ k)

/-- The number written most significant byte first. -/
def ofBE (s : Str) : Nat := s.foldl (fun a b => a * 256 + b.toNat) 0

/-- The head of an item: major type and argument in the shortest form (RFC 8949, 3 and 4.2.1). -/
def head (major n : Nat) : Str :=
  if n < 24 then [UInt8.ofNat (major * 32 + n)]
  else if n < 2 ^ 8 then UInt8.ofNat (major * 32 + 24) :: be 1 n
  else if n < 2 ^ 16 then UInt8.ofNat (major * 32 + 25) :: be 2 n
  else if n < 2 ^ 32 then UInt8.ofNat (major * 32 + 26) :: be 4 n
  else UInt8.ofNat (major * 32 + 27) :: be 8 n

/-- Reading a head: major type, additional information, argument, remaining bytes. -/
def readHead : Str → Option (Nat × Nat × Nat × Str)
  | [] => none
  | b :: s =>
    let major := b.toNat / 32
    let info := b.toNat % 32
    if info < 24 then some (major, info, info, s)
    else if info ≤ 27 then
      let k := 2 ^ (info - 24)
      if s.length < k then none else some (major, info, ofBE (s.take k), s.drop k)
    else none

/-! ## Floats -/

/-- Exponent bias of an IEEE 754 format with `eb` exponent bits. -/
def bias (eb : Nat) : Int := 2 ^ (eb - 1) - 1

/-- The bit pattern of a finite value of a format with `eb` exponent and `mb` fraction bits. -/
def floatBits (eb mb : Nat) (neg : Bool) (m : Nat) (e : Int) : Nat :=
  (if neg then 2 ^ (eb + mb) else 0) + (if m < 2 ^ mb then m else (e + bias eb + mb).toNat * 2 ^ mb + (m - 2 ^ mb))

/-- The value of a bit pattern. -/
def floatOf (eb mb : Nat) (n : Nat) : GoFloat :=
  let neg := n / 2 ^ (eb + mb) = 1
  let e := n / 2 ^ mb % 2 ^ eb
  let f := n % 2 ^ mb
  if e = 2 ^ eb - 1 then (if f = 0 then .inf neg else .nan)
  else if e = 0 then .fin neg f (1 - bias eb - mb)
  else .fin neg (2 ^ mb + f) (e - bias eb - mb)

/-- A value of the format, written the way `floatOf` writes it. -/
def isFloat (eb mb : Nat) : GoFloat → Bool
  | .fin _ m e => if m < 2 ^ mb then e == 1 - bias eb - mb
      else m < 2 ^ (mb + 1) && 1 - bias eb - mb ≤ e && e ≤ 2 ^ eb - 2 - bias eb - mb
  | _ => true

/-- Infinities and NaN. -/
def special : GoFloat → Str
  | .inf false => [0xf9, 0x7c, 0x00]
  | .inf true => [0xf9, 0xfc, 0x00]
  | _ => [0xf9, 0x7e, 0x00]

/-! ## Encoder -/

mutual
/-- `cbor.Marshal` of a value; `none` is an error.  `order` is the order in which Go happens to walk through a map. -/
def enc (order : List (Str × Str) → List (Str × Str)) : Val → Option Str
  | .nil => some [0xf6]
  | .bool b => some [if b then 0xf5 else 0xf4]
  | .int _ v => some (if 0 ≤ v then head 0 v.toNat else head 1 (-1 - v).toNat)
  | .uint _ n => some (head 0 n)
  | .f32 (.fin neg m e) => some (0xfa :: be 4 (floatBits 8 23 neg m e))
  | .f64 (.fin neg m e) => some (0xfb :: be 8 (floatBits 11 52 neg m e))
  | .f32 f => some (special f)
  | .f64 f => some (special f)
  | .str s => some (head 3 s.length ++ s)
  | .named s => some (head 3 s.length ++ s)
  | .bytes b => some (head 2 b.length ++ b)
  | .arr l => (encL order l).map fun s => head 4 l.length ++ s
  | .arrNil => some [0xf6]
  | .strs l => some (head 4 l.length ++ l.flatMap fun s => head 3 s.length ++ s)
  | .strsNil => some [0xf6]
  | .map d => (encM order d).map fun ps => head 5 d.length ++ (order ps).flatMap fun p => head 3 p.1.length ++ p.1 ++ p.2
  | .mapNil => some [0xf6]
  | .other _ => none
/-- The elements of a list one after the other. -/
def encL (order : List (Str × Str) → List (Str × Str)) : List Val → Option Str
  | [] => some []
  | v :: rest =>
    match enc order v, encL order rest with
    | some a, some b => some (a ++ b)
    | _, _ => none
/-- The entries of a map with their values encoded. -/
def encM (order : List (Str × Str) → List (Str × Str)) : List (Str × Val) → Option (List (Str × Str))
  | [] => some []
  | (k, v) :: rest =>
    match enc order v, encM order rest with
    | some a, some b => some ((k, a) :: b)
    | _, _ => none
end

/-! ## Decoder -/

/-- A continuation byte between `lo` and `hi`. -/
def within (b : UInt8) (lo hi : Nat) : Bool := lo ≤ b.toNat && b.toNat ≤ hi

/-- `utf8.Valid` of the Go standard library. -/
def validUtf8 : Str → Bool
  | [] => true
  | a :: rest =>
    if a.toNat < 0x80 then validUtf8 rest
    else match rest with
    | [] => false
    | b :: rest =>
      if within a 0xc2 0xdf && within b 0x80 0xbf then validUtf8 rest
      else match rest with
      | [] => false
      | c :: rest =>
        if (within a 0xe0 0xef && within b (if a = 0xe0 then 0xa0 else 0x80) (if a = 0xed then 0x9f else 0xbf)) && within c 0x80 0xbf then
          validUtf8 rest
        else match rest with
        | [] => false
        | d :: rest =>
          if (within a 0xf0 0xf4 && within b (if a = 0xf0 then 0x90 else 0x80) (if a = 0xf4 then 0x8f else 0xbf)) &&
              (within c 0x80 0xbf && within d 0x80 0xbf) then validUtf8 rest
          else false

/-- The first `n` bytes and the rest, if there are that many. -/
def split (n : Nat) (s : Str) : Option (Str × Str) := if s.length < n then none else some (s.take n, s.drop n)

/-- `n` items one after the other, each read by `f`. -/
def seqOf {α : Type} (f : Str → Option (α × Str)) : Nat → Str → Option (List α × Str)
  | 0, s => some ([], s)
  | n + 1, s =>
    match f s with
    | none => none
    | some (v, s) =>
      match seqOf f n s with
      | none => none
      | some (l, s) => some (v :: l, s)

/-- Items read by `f` up to the "break" code, at most `n` of them. -/
def untilBreak {α : Type} (f : Str → Option (α × Str)) : Nat → Str → Option (List α × Str)
  | 0, s => if s.head? = some 0xff then some ([], s.tail) else none
  | n + 1, s =>
    if s.head? = some 0xff then some ([], s.tail)
    else match f s with
    | none => none
    | some (v, s) =>
      match untilBreak f n s with
      | none => none
      | some (l, s) => some (v :: l, s)

/-- A chunk of a string of indefinite length: a string of the same major type (2 bytes, 3 text) and of definite length. -/
def chunk (major : Nat) (s : Str) : Option (Str × Str) :=
  match readHead s with
  | none => none
  | some (m, _, n, s) =>
    if m = major then
      match split n s with
      | none => none
      | some (t, s) => if major = 3 ∧ validUtf8 t = false then none else some (t, s)
    else none

/-- The rest of a string of indefinite length; every chunk takes at least one byte. -/
def chunks (major : Nat) (s : Str) : Option (Str × Str) :=
  match untilBreak (chunk major) s.length s with
  | some (l, s) => some (l.flatten, s)
  | none => none

/-- A text string. -/
def readText (s : Str) : Option (Str × Str) :=
  match readHead s with
  | some (3, _, n, s) =>
    match split n s with
    | some (t, s) => if validUtf8 t then some (t, s) else none
    | none => none
  | none => if s.head? = some 0x7f then chunks 3 s.tail else none
  | _ => none

/-- An entry of a map, its value read by `f`. -/
def readPair (f : Str → Option (Val × Str)) (s : Str) : Option ((Str × Val) × Str) :=
  match readText s with
  | none => none
  | some (k, s) =>
    match f s with
    | none => none
    | some (v, s) => some ((k, v), s)

/-- The most elements a list or map may have (`MaxArrayElements`, `MaxMapPairs`). -/
def maxElements : Nat := 131072

/-- Decoding one item into an `any` when `levels` more levels of nesting are allowed. -/
def dec (levels : Nat) (s : Str) : Option (Val × Str) :=
  match readHead s with
  | none =>
    if s.head? = some 0x5f then
      match chunks 2 s.tail with
      | some (b, s) => some (.bytes b, s)
      | none => none
    else if s.head? = some 0x7f then
      match chunks 3 s.tail with
      | some (t, s) => some (.str t, s)
      | none => none
    else if s.head? = some 0x9f then
      match levels with
      | 0 => none
      | levels + 1 =>
        match untilBreak (dec levels) maxElements s.tail with
        | some (l, s) => some (.arr l, s)
        | none => none
    else if s.head? = some 0xbf then
      match levels with
      | 0 => none
      | levels + 1 =>
        match untilBreak (readPair (dec levels)) maxElements s.tail with
        | some (ps, s) => some (.map (ps.foldl (fun d p => dset d p.1 p.2) []), s)
        | none => none
    else none
  | some (major, info, n, s) =>
    match major with
    | 0 => some (.uint .u64 n, s)
    | 1 => some (if n < 2 ^ 63 then .int .i64 (-1 - n) else .other 1, s)
    | 2 =>
      match split n s with
      | some (b, s) => some (.bytes b, s)
      | none => none
    | 3 =>
      match split n s with
      | some (t, s) => if validUtf8 t then some (.str t, s) else none
      | none => none
    | 4 =>
      match levels with
      | 0 => none
      | levels + 1 =>
        if maxElements < n then none
        else match seqOf (dec levels) n s with
        | some (l, s) => some (.arr l, s)
        | none => none
    | 5 =>
      match levels with
      | 0 => none
      | levels + 1 =>
        if maxElements < n then none
        else match seqOf (readPair (dec levels)) n s with
        | some (ps, s) => some (.map (ps.foldl (fun d p => dset d p.1 p.2) []), s)
        | none => none
    | 6 =>
      match levels with
      | 0 => none
      | levels + 1 =>
        match dec levels s with
        | some (_, s) => some (.other 6, s)
        | none => none
    | _ =>
      if info < 20 then some (.other 7, s)
      else match info with
      | 20 => some (.bool false, s)
      | 21 => some (.bool true, s)
      | 22 => some (.nil, s)
      | 23 => some (.nil, s)
      | 24 => if n < 32 then none else some (.other 7, s)
      | 25 => some (.f64 (floatOf 5 10 n), s)
      | 26 => some (.f64 (floatOf 8 23 n), s)
      | _ => some (.f64 (floatOf 11 52 n), s)

/-- `Unmarshal` into a `[]any`: a list, or null for the nil slice; nothing may follow. -/
def decode (s : Str) : Option (List Val) :=
  match dec 32 s with
  | some (.arr l, []) => some l
  | some (.nil, []) => some []
  | _ => none

/-- The CBOR library as serializers/cbor.go:23-31 uses it. -/
def codec (order : List (Str × Str) → List (Str × Str)) : Codec where
  enc l := enc order (.arr l)
  dec := decode

end Wamp.Cbor
