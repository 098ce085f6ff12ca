import Verif.Spec.Formats
import Verif.Spec.Float
import Verif.Model.Wire
/-!
# What JSON and base64 mean

RFC 8259 (JSON) and RFC 4648 (base64), written down without reference to the serializers.
-/
namespace Wamp.Formats
open Wamp Wamp.Spec

/-! ## Text -/

/-- UTF-8. -/
def utf8Of (cs : List Char) : Str := cs.flatMap String.utf8EncodeChar

/-- A hexadecimal digit, upper or lower case. -/
def Hex (n : Nat) (h : UInt8) : Prop :=
  (n < 10 ∧ h = UInt8.ofNat (48 + n)) ∨ (10 ≤ n ∧ n < 16 ∧ (h = UInt8.ofNat (87 + n) ∨ h = UInt8.ofNat (55 + n)))

/-- Four hexadecimal digits. -/
def Hex4 (n : Nat) (s : Str) : Prop :=
  ∃ a b c d h1 h2 h3 h4, s = [h1, h2, h3, h4] ∧ n = 4096 * a + 256 * b + 16 * c + d ∧ Hex a h1 ∧ Hex b h2 ∧ Hex c h3 ∧ Hex d h4

/-- Characters and the letters that stand for them after a backslash. -/
def shorthands : List (Char × UInt8) :=
  [('"', 0x22), ('\\', 0x5c), ('/', 0x2f), (Char.ofNat 8, 0x62), (Char.ofNat 12, 0x66), ('\n', 0x6e), ('\r', 0x72), ('\t', 0x74)]

/-- The inside of a string literal (RFC 8259, 7): characters as they are (except quote, backslash and control characters), shorthands, `\uXXXX`,
and two of the latter, a surrogate pair (RFC 2781), for characters beyond U+FFFF. -/
inductive Chars : List Char → Str → Prop where
  | done : Chars [] []
  | plain {c : Char} {cs s} : 0x20 ≤ c.val.toNat → c ≠ '"' → c ≠ '\\' → Chars cs s → Chars (c :: cs) (String.utf8EncodeChar c ++ s)
  | short {c : Char} {e : UInt8} {cs s} : (c, e) ∈ shorthands → Chars cs s → Chars (c :: cs) (0x5c :: e :: s)
  | hex {c : Char} {h cs s} : Hex4 c.val.toNat h → Chars cs s → Chars (c :: cs) (0x5c :: 0x75 :: h ++ s)
  | pair {c : Char} {h l cs s} : 0x10000 ≤ c.val.toNat → Hex4 (0xd800 + (c.val.toNat - 0x10000) / 0x400) h →
      Hex4 (0xdc00 + (c.val.toNat - 0x10000) % 0x400) l → Chars cs s → Chars (c :: cs) (0x5c :: 0x75 :: h ++ (0x5c :: 0x75 :: l ++ s))

/-- A string literal for a text. -/
def Literal (t : Str) (b : Str) : Prop := ∃ cs s, t = utf8Of cs ∧ Chars cs s ∧ b = 0x22 :: (s ++ [0x22])

/-! ## Numbers -/

/-- Decimal digits without superfluous zeros, as Lean writes natural numbers. -/
def digitsOf (n : Nat) : Str := (Nat.toDigits 10 n).map fun c => UInt8.ofNat c.toNat

/-- A decimal integer. -/
def integerOf (v : Int) : Str := if v < 0 then 0x2d :: digitsOf v.natAbs else digitsOf v.natAbs

/-- One or more digits. -/
def Digits (s : Str) : Prop := s ≠ [] ∧ ∀ c ∈ s, 48 ≤ c.toNat ∧ c.toNat ≤ 57

/-- The value of digits. -/
def valueOf (ds : Str) : Nat := ds.foldl (fun n c => 10 * n + (c.toNat - 48)) 0

/-- An exponent and its value. -/
def ExponentOf (exp : Str) (x : Int) : Prop :=
  (exp = [] ∧ x = 0) ∨ ∃ e sg ds, (e = 0x65 ∨ e = 0x45) ∧ Digits ds ∧ exp = e :: sg ++ ds ∧
    (((sg = [] ∨ sg = str "+") ∧ x = valueOf ds) ∨ (sg = str "-" ∧ x = -(valueOf ds : Int)))

/-- The grammar of numbers (RFC 8259, 6): sign, integer, fraction, exponent. -/
def NumberOf (s : Str) (neg : Bool) (int ds : Str) (x : Int) : Prop :=
  ∃ frac exp, s = (if neg then str "-" else []) ++ int ++ frac ++ exp ∧
    (Digits int ∧ (int.head? = some 48 → int = [48])) ∧
    ((frac = [] ∧ ds = []) ∨ (Digits ds ∧ frac = 0x2e :: ds)) ∧ ExponentOf exp x

/-- A number. -/
def Number (s : Str) : Prop := ∃ neg int ds x, NumberOf s neg int ds x

/-- A number with a sign and the value `d * 10 ^ t`. -/
def Denotes (s : Str) (neg : Bool) (d : Nat) (t : Int) : Prop :=
  ∃ int ds x, ∃ k : Nat, NumberOf s neg int ds x ∧ valueOf (int ++ ds) = d * 10 ^ k ∧ t = x - ds.length + k

/-- The `float64` a number stands for: with its sign, the one nearest to the digits before and after the point, times the power of ten they need. -/
def Stands64 (s : Str) (f : GoFloat) : Prop :=
  ∃ neg int ds x m e t, NumberOf s neg int ds x ∧ f = .fin neg m e ∧ t = x - ds.length ∧
    Nearest64 (valueOf (int ++ ds) * 10 ^ t.toNat) (10 ^ (-t).toNat) m e

/-! ## JSON -/

/-- White space. -/
def Space (s : Str) : Prop := ∀ c ∈ s, c = 0x20 ∨ c = 0x09 ∨ c = 0x0a ∨ c = 0x0d

/-- The parts of a JSON text: a value, the inside of a list that is not empty, the inside of such an object. -/
inductive Part where
  | value (d : Data)
  | elements (l : List Data)
  | members (d : List (Str × Data))

/-- JSON texts (RFC 8259) for content.  Numbers beyond the range of `float64` are left out.  An integer may also be read as the nearest `float64`.  The members of an object may come in any order; their names are different. -/
inductive Json : Part → Str → Prop where
  | null : Json (.value .null) (str "null")
  | no : Json (.value (.bool false)) (str "false")
  | yes : Json (.value (.bool true)) (str "true")
  | int {v} : v.natAbs < 2 ^ 1024 - 2 ^ 970 → Json (.value (.int v)) (integerOf v)
  | float {s f} : Number s → Stands64 s f → Json (.value (.float f)) s
  | text {t b} : Literal t b → Json (.value (.text t)) b
  | empty {w} : Space w → Json (.value (.list [])) (0x5b :: (w ++ [0x5d]))
  | list {l b} : Json (.elements l) b → Json (.value (.list l)) (0x5b :: (b ++ [0x5d]))
  | one {d b w1 w2} : Space w1 → Json (.value d) b → Space w2 → Json (.elements [d]) (w1 ++ b ++ w2)
  | more {d b w1 w2 l bs} : Space w1 → Json (.value d) b → Space w2 → Json (.elements l) bs →
      Json (.elements (d :: l)) (w1 ++ b ++ w2 ++ 0x2c :: bs)
  | nothing {w} : Space w → Json (.value (.dict [])) (0x7b :: (w ++ [0x7d]))
  | dict {d d' b} : d'.Perm d → Json (.members d') b → Json (.value (.dict d)) (0x7b :: (b ++ [0x7d]))
  | last {k d kb b w1 w2 w3 w4} : Space w1 → Literal k kb → Space w2 → Space w3 → Json (.value d) b → Space w4 →
      Json (.members [(k, d)]) (w1 ++ kb ++ w2 ++ 0x3a :: (w3 ++ b ++ w4))
  | member {k d kb b w1 w2 w3 w4 l bs} : Space w1 → Literal k kb → Space w2 → Space w3 → Json (.value d) b → Space w4 →
      Json (.members l) bs → Json (.members ((k, d) :: l)) (w1 ++ kb ++ w2 ++ 0x3a :: (w3 ++ b ++ w4 ++ 0x2c :: bs))

mutual
/-- The Go value a reader makes of content: all numbers become `float64`. -/
def jsonVal : Data → Val
  | .null => .nil
  | .bool b => .bool b
  | .int v => .f64 (f64OfInt v)
  | .float f => .f64 f
  | .text s => .str s
  | .bytes b => .bytes b
  | .list l => .arr (jsonVals l)
  | .dict d => .map (jsonEntries d)
/-- The same for the elements of a list. -/
def jsonVals : List Data → List Val
  | [] => []
  | d :: rest => jsonVal d :: jsonVals rest
/-- The same for the values of a map. -/
def jsonEntries : List (Str × Data) → List (Str × Val)
  | [] => []
  | (k, d) :: rest => (k, jsonVal d) :: jsonEntries rest
end

/-! ## base64 -/

/-- The bits of a byte, the most significant first. -/
def bitsOf (c : UInt8) : List Bool := [7, 6, 5, 4, 3, 2, 1, 0].map fun i => c.toNat.testBit i

/-- The alphabet (RFC 4648, table 1). -/
def alphabet : Str := str "ABCDEFGHIJKLMNOPQRSTUVWXYZabcdefghijklmnopqrstuvwxyz0123456789+/"

/-- The number with these bits. -/
def ofBits (l : List Bool) : Nat := l.foldl (fun n b => 2 * n + b.toNat) 0

/-- Six bits per character, missing bits zero. -/
def sextets : List Bool → Str
  | [] => []
  | [a] => [alphabet.getD (ofBits [a, false, false, false, false, false]) 0]
  | [a, b] => [alphabet.getD (ofBits [a, b, false, false, false, false]) 0]
  | [a, b, c] => [alphabet.getD (ofBits [a, b, c, false, false, false]) 0]
  | [a, b, c, d] => [alphabet.getD (ofBits [a, b, c, d, false, false]) 0]
  | [a, b, c, d, e] => [alphabet.getD (ofBits [a, b, c, d, e, false]) 0]
  | a :: b :: c :: d :: e :: f :: rest => alphabet.getD (ofBits [a, b, c, d, e, f]) 0 :: sextets rest

/-- base64 with padding (RFC 4648, 4). -/
def base64 (b : Str) : Str :=
  let s := sextets (b.flatMap bitsOf)
  s ++ List.replicate ((4 - s.length % 4) % 4) 0x3d

mutual
/-- Content as JSON has it: there are no byte strings; Go writes them in base64. -/
def asJson : Data → Data
  | .bytes b => .text (base64 b)
  | .list l => .list (asJsonL l)
  | .dict d => .dict (asJsonD d)
  | d => d
/-- The same for the elements of a list. -/
def asJsonL : List Data → List Data
  | [] => []
  | d :: rest => asJson d :: asJsonL rest
/-- The same for the values of a map. -/
def asJsonD : List (Str × Data) → List (Str × Data)
  | [] => []
  | (k, d) :: rest => (k, asJson d) :: asJsonD rest
end

/-- The content of a Go value in JSON.  A `float32` is written with just the digits that tell it from other `float32`s; `jsonF32` is the number these digits stand for. -/
def jsonContent (v : Val) : Data := asJson (content (wire (fun | .f32 f => .f64 (jsonF32 f) | v => v) v))

end Wamp.Formats
