import Verif.Model.Messages
/-!
# What the wire formats mean

The published rules of the formats, written down without reference to the serializers: UTF-8 (RFC 3629, as Lean's own `String` has it),
IEEE 754, CBOR (RFC 8949) and MsgPack (its specification), as relations between content and bytes.
-/
namespace Wamp.Formats
open Wamp

/-! ## Content -/

/-- Content, independent of Go types and of any format.  A dictionary stands for a finite map. -/
inductive Data where
  | null
  | bool (b : Bool)
  | int (v : Int)
  | float (f : GoFloat)
  | text (s : Str)
  | bytes (b : Str)
  | list (l : List Data)
  | dict (d : List (Str × Data))

mutual
/-- The content of a Go value: neither the size of a number nor the difference between nil slices, nil maps and nil matters.
(`other` has no content; it is never written.) -/
def content : Val → Data
  | .nil => .null
  | .bool b => .bool b
  | .int _ v => .int v
  | .uint _ n => .int n
  | .f32 f => .float f
  | .f64 f => .float f
  | .str s => .text s
  | .named s => .text s
  | .bytes b => .bytes b
  | .arr l => .list (contents l)
  | .arrNil => .null
  | .strs l => .list (l.map .text)
  | .strsNil => .null
  | .map d => .dict (entries d)
  | .mapNil => .null
  | .other _ => .null
/-- The contents of the elements of a list. -/
def contents : List Val → List Data
  | [] => []
  | v :: rest => content v :: contents rest
/-- The contents of the entries of a map. -/
def entries : List (Str × Val) → List (Str × Data)
  | [] => []
  | (k, v) :: rest => (k, content v) :: entries rest
end

/-! ## Text and numbers -/

/-- Text in UTF-8: the encodings of Unicode characters one after the other. -/
def Utf8 (s : Str) : Prop := ∃ cs : List Char, s = cs.flatMap String.utf8EncodeChar

/-- Most significant byte first. -/
def bigEndian : Str → Nat
  | [] => 0
  | b :: s => b.toNat * 256 ^ s.length + bigEndian s

/-- A binary interchange format of IEEE 754: bits of the exponent, bits of the fraction, bias. -/
structure Format where
  exp : Nat
  frac : Nat
  bias : Int

/-- binary16 -/
def half : Format := ⟨5, 10, 15⟩
/-- binary32 -/
def single : Format := ⟨8, 23, 127⟩
/-- binary64 -/
def double : Format := ⟨11, 52, 1023⟩

/-- The value of a bit pattern (IEEE 754-2019, 3.4): sign, exponent and fraction from left to right. -/
def Format.value (F : Format) (n : Nat) : GoFloat :=
  let sign := n / 2 ^ (F.exp + F.frac) % 2
  let e := n / 2 ^ F.frac % 2 ^ F.exp
  let f := n % 2 ^ F.frac
  if e = 2 ^ F.exp - 1 then (if f = 0 then .inf (sign = 1) else .nan)
  else if e = 0 then .fin (sign = 1) f (1 - F.bias - F.frac)
  else .fin (sign = 1) (2 ^ F.frac + f) (e - F.bias - F.frac)

/-! ## CBOR -/

/-- The head of an item (RFC 8949, 3): the major type in three bits; an argument below 24 in the other five, otherwise 24 to 27 there and
the argument in the following 1, 2, 4 or 8 bytes.  An argument need not be written in the shortest form. -/
inductive Head (major : Nat) : Nat → Str → Prop where
  | small (n : Nat) : n < 24 → Head major n [UInt8.ofNat (32 * major + n)]
  | large (k : Nat) (s : Str) : k ≤ 3 → s.length = 2 ^ k → Head major (bigEndian s) (UInt8.ofNat (32 * major + 24 + k) :: s)

/-- Data items one after the other (RFC 8742) with the given contents: RFC 8949, 3.1 to 3.3, without tags.  The entries of a map may come in
any order.  Strings of indefinite length consist of chunks, each with its head; they, lists and maps of indefinite length end with the byte 0xff. -/
inductive Cbor : List Data → Str → Prop where
  | done : Cbor [] []
  | unsigned {n : Nat} {h ds b} : Head 0 n h → Cbor ds b → Cbor (.int n :: ds) (h ++ b)
  | negative {n : Nat} {h ds b} : Head 1 n h → Cbor ds b → Cbor (.int (-1 - n) :: ds) (h ++ b)
  | bytes {s : Str} {h ds b} : Head 2 s.length h → Cbor ds b → Cbor (.bytes s :: ds) (h ++ s ++ b)
  | text {s : Str} {h ds b} : Head 3 s.length h → Utf8 s → Cbor ds b → Cbor (.text s :: ds) (h ++ s ++ b)
  | list {l : List Data} {h a ds b} : Head 4 l.length h → Cbor l a → Cbor ds b → Cbor (.list l :: ds) (h ++ a ++ b)
  | dict {d d' : List (Str × Data)} {h a ds b} : Head 5 d.length h → d'.Perm d → Cbor (d'.flatMap fun p => [.text p.1, p.2]) a → Cbor ds b →
      Cbor (.dict d :: ds) (h ++ a ++ b)
  | no {ds b} : Cbor ds b → Cbor (.bool false :: ds) (0xf4 :: b)
  | yes {ds b} : Cbor ds b → Cbor (.bool true :: ds) (0xf5 :: b)
  | null {ds b} : Cbor ds b → Cbor (.null :: ds) (0xf6 :: b)
  | undefined {ds b} : Cbor ds b → Cbor (.null :: ds) (0xf7 :: b)
  | half {s : Str} {ds b} : s.length = 2 → Cbor ds b → Cbor (.float (half.value (bigEndian s)) :: ds) (0xf9 :: (s ++ b))
  | single {s : Str} {ds b} : s.length = 4 → Cbor ds b → Cbor (.float (single.value (bigEndian s)) :: ds) (0xfa :: (s ++ b))
  | double {s : Str} {ds b} : s.length = 8 → Cbor ds b → Cbor (.float (double.value (bigEndian s)) :: ds) (0xfb :: (s ++ b))
  | byteChunks {cs : List (Str × Str)} {ds b} : (∀ c ∈ cs, Head 2 c.2.length c.1) → Cbor ds b →
      Cbor (.bytes (cs.flatMap fun c => c.2) :: ds) (0x5f :: ((cs.flatMap fun c => c.1 ++ c.2) ++ 0xff :: b))
  | textChunks {cs : List (Str × Str)} {ds b} : (∀ c ∈ cs, Head 3 c.2.length c.1 ∧ Utf8 c.2) → Cbor ds b →
      Cbor (.text (cs.flatMap fun c => c.2) :: ds) (0x7f :: ((cs.flatMap fun c => c.1 ++ c.2) ++ 0xff :: b))
  | openList {l : List Data} {a ds b} : Cbor l a → Cbor ds b → Cbor (.list l :: ds) (0x9f :: (a ++ 0xff :: b))
  | openDict {d d' : List (Str × Data)} {a ds b} : d'.Perm d → Cbor (d'.flatMap fun p => [.text p.1, p.2]) a → Cbor ds b →
      Cbor (.dict d :: ds) (0xbf :: (a ++ 0xff :: b))

/-! ## MsgPack -/

/-- A length: in the code byte itself, or in 1, 2 or 4 bytes after a code of its own (`codes`). -/
inductive Len (fix small : Nat) (codes : List (UInt8 × Nat)) : Nat → Str → Prop where
  | fix (n : Nat) : n < small → Len fix small codes n [UInt8.ofNat (fix + n)]
  | code (c : UInt8) (s : Str) : (c, s.length) ∈ codes → Len fix small codes (bigEndian s) (c :: s)

/-- Two's complement. -/
def twos (s : Str) : Int :=
  if bigEndian s < 2 ^ (8 * s.length - 1) then (bigEndian s : Int) else (bigEndian s : Int) - 2 ^ (8 * s.length)

/-- The code bytes of strings: fixstr, str 8, str 16, str 32. -/
def StrLen := Len 0xa0 32 [(0xd9, 1), (0xda, 2), (0xdb, 4)]
/-- The code bytes of byte strings: bin 8, bin 16, bin 32. -/
def BinLen := Len 0 0 [(0xc4, 1), (0xc5, 2), (0xc6, 4)]
/-- The code bytes of lists: fixarray, array 16, array 32. -/
def ListLen := Len 0x90 16 [(0xdc, 2), (0xdd, 4)]
/-- The code bytes of maps: fixmap, map 16, map 32. -/
def DictLen := Len 0x80 16 [(0xde, 2), (0xdf, 4)]

/-- Objects one after the other with the given contents, without extension types.  The entries of a map may come in any order. -/
inductive MsgPack : List Data → Str → Prop where
  | done : MsgPack [] []
  | null {ds b} : MsgPack ds b → MsgPack (.null :: ds) (0xc0 :: b)
  | no {ds b} : MsgPack ds b → MsgPack (.bool false :: ds) (0xc2 :: b)
  | yes {ds b} : MsgPack ds b → MsgPack (.bool true :: ds) (0xc3 :: b)
  | posfix {n : Nat} {ds b} : n < 128 → MsgPack ds b → MsgPack (.int n :: ds) (UInt8.ofNat n :: b)
  | negfix {n : Nat} {ds b} : n < 32 → MsgPack ds b → MsgPack (.int (n - 32) :: ds) (UInt8.ofNat (0xe0 + n) :: b)
  | unsigned {c : UInt8} {s : Str} {ds b} : (c, s.length) ∈ [((0xcc : UInt8), 1), (0xcd, 2), (0xce, 4), (0xcf, 8)] → MsgPack ds b →
      MsgPack (.int (bigEndian s) :: ds) (c :: (s ++ b))
  | signed {c : UInt8} {s : Str} {ds b} : (c, s.length) ∈ [((0xd0 : UInt8), 1), (0xd1, 2), (0xd2, 4), (0xd3, 8)] → MsgPack ds b →
      MsgPack (.int (twos s) :: ds) (c :: (s ++ b))
  | single {s : Str} {ds b} : s.length = 4 → MsgPack ds b → MsgPack (.float (single.value (bigEndian s)) :: ds) (0xca :: (s ++ b))
  | double {s : Str} {ds b} : s.length = 8 → MsgPack ds b → MsgPack (.float (double.value (bigEndian s)) :: ds) (0xcb :: (s ++ b))
  | text {s : Str} {h ds b} : StrLen s.length h → MsgPack ds b → MsgPack (.text s :: ds) (h ++ s ++ b)
  | bytes {s : Str} {h ds b} : BinLen s.length h → MsgPack ds b → MsgPack (.bytes s :: ds) (h ++ s ++ b)
  | list {l : List Data} {h a ds b} : ListLen l.length h → MsgPack l a → MsgPack ds b → MsgPack (.list l :: ds) (h ++ a ++ b)
  | dict {d d' : List (Str × Data)} {h a ds b} : DictLen d.length h → d'.Perm d → MsgPack (d'.flatMap fun p => [.text p.1, p.2]) a → MsgPack ds b →
      MsgPack (.dict d :: ds) (h ++ a ++ b)

/-! ## What readers accept -/

/-- Keys in increasing order, in particular every key once: the canonical way to write down a finite map. -/
def Ordered (d : List (Str × Data)) : Prop := d.Pairwise fun p q => strLt p.1 q.1 = true

mutual
/-- At most `levels` levels of nesting, at most `count` elements per list or map, integers from `-2^63` to `2^64 - 1`, maps as finite
maps. -/
def Within (count levels : Nat) : Data → Prop
  | .int v => -2 ^ 63 ≤ v ∧ v < 2 ^ 64
  | .list l => 0 < levels ∧ l.length ≤ count ∧ WithinL count (levels - 1) l
  | .dict d => 0 < levels ∧ d.length ≤ count ∧ Ordered d ∧ WithinD count (levels - 1) d
  | _ => True
/-- The same for all elements of a list. -/
def WithinL (count levels : Nat) : List Data → Prop
  | [] => True
  | d :: rest => Within count levels d ∧ WithinL count levels rest
/-- The same for all values of a map. -/
def WithinD (count levels : Nat) : List (Str × Data) → Prop
  | [] => True
  | (_, d) :: rest => Within count levels d ∧ WithinD count levels rest
end

mutual
/-- The Go value the CBOR library makes of content: integers become `uint64` or, if negative, `int64`; floats become `float64`. -/
def cborVal : Data → Val
  | .null => .nil
  | .bool b => .bool b
  | .int v => if 0 ≤ v then .uint .u64 v.toNat else .int .i64 v
  | .float f => .f64 f
  | .text s => .str s
  | .bytes b => .bytes b
  | .list l => .arr (cborVals l)
  | .dict d => .map (cborEntries d)
/-- The same for the elements of a list. -/
def cborVals : List Data → List Val
  | [] => []
  | d :: rest => cborVal d :: cborVals rest
/-- The same for the values of a map. -/
def cborEntries : List (Str × Data) → List (Str × Val)
  | [] => []
  | (k, d) :: rest => (k, cborVal d) :: cborEntries rest
end

/-! ## Messages -/

/-- A HELLO without authentication methods or roles is one with none of them. -/
def filled : Msg → Msg
  | .hello realm authID ms x r => .hello realm authID (some (ms.getD [])) (some (x.getD [])) (some (r.getD []))
  | m => m

end Wamp.Formats
