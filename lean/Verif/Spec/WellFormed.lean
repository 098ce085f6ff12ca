import Verif.Spec.FormatsJson
/-!
# Well-formed bytes

The grammars of the three formats alone, without what the bytes mean: CBOR (RFC 8949, 3 and appendix C), MsgPack (its specification),
JSON (RFC 8259, the productions of sections 2 to 7).
-/
namespace Wamp.Formats
open Wamp

/-- A CBOR data item up to the items inside it, `j` of which must follow: a head, then as many bytes as it says.  Text is UTF-8.  Simple values
below 32 must not be written in two bytes.  A string of indefinite length is a sequence of strings of the same kind, ended by the byte 0xff. -/
inductive CborStart : Nat → Str → Prop where
  | number {major n h} : major = 0 ∨ major = 1 → Head major n h → CborStart 0 h
  | bytes {h s : Str} : Head 2 s.length h → CborStart 0 (h ++ s)
  | text {h s : Str} : Head 3 s.length h → Utf8 s → CborStart 0 (h ++ s)
  | list {n h} : Head 4 n h → CborStart n h
  | dict {n h} : Head 5 n h → CborStart (2 * n) h
  | tag {n h} : Head 6 n h → CborStart 1 h
  | simple {n h} : Head 7 n h → (h.length = 2 → 32 ≤ n) → CborStart 0 h
  | byteChunks {cs : List (Str × Str)} : (∀ c ∈ cs, Head 2 c.2.length c.1) → CborStart 0 (0x5f :: ((cs.flatMap fun c => c.1 ++ c.2) ++ [0xff]))
  | textChunks {cs : List (Str × Str)} : (∀ c ∈ cs, Head 3 c.2.length c.1 ∧ Utf8 c.2) → CborStart 0 (0x7f :: ((cs.flatMap fun c => c.1 ++ c.2) ++ [0xff]))

/-- `k` CBOR data items one after the other.  Lists and maps of indefinite length are ended by the byte 0xff. -/
inductive CborItems : Nat → Str → Prop where
  | done : CborItems 0 []
  | item {j k h b} : CborStart j h → CborItems (j + k) b → CborItems (k + 1) (h ++ b)
  | openList {n k a b} : CborItems n a → CborItems k b → CborItems (k + 1) (0x9f :: (a ++ 0xff :: b))
  | openDict {n k a b} : CborItems (2 * n) a → CborItems k b → CborItems (k + 1) (0xbf :: (a ++ 0xff :: b))

/-- `k` MsgPack objects one after the other, without extension types: a code, then as many bytes, objects or pairs of objects as it says. -/
inductive MsgPackItems : Nat → Str → Prop where
  | done : MsgPackItems 0 []
  | code {k} {c : UInt8} {b} : c.toNat < 0x80 ∨ 0xe0 ≤ c.toNat ∨ c = 0xc0 ∨ c = 0xc2 ∨ c = 0xc3 → MsgPackItems k b → MsgPackItems (k + 1) (c :: b)
  | number {k} {c : UInt8} {s b : Str} : (c, s.length) ∈ [((0xca : UInt8), 4), (0xcb, 8), (0xcc, 1), (0xcd, 2), (0xce, 4), (0xcf, 8), (0xd0, 1), (0xd1, 2),
      (0xd2, 4), (0xd3, 8)] → MsgPackItems k b → MsgPackItems (k + 1) (c :: (s ++ b))
  | text {k h s b} : StrLen s.length h → MsgPackItems k b → MsgPackItems (k + 1) (h ++ s ++ b)
  | bytes {k h s b} : BinLen s.length h → MsgPackItems k b → MsgPackItems (k + 1) (h ++ s ++ b)
  | list {k n h b} : ListLen n h → MsgPackItems (n + k) b → MsgPackItems (k + 1) (h ++ b)
  | dict {k n h b} : DictLen n h → MsgPackItems (2 * n + k) b → MsgPackItems (k + 1) (h ++ b)

/-- The characters of a string literal: any byte but quote, backslash and control characters; a backslash and one of eight letters; `\u` and four
hexadecimal digits. -/
inductive JsonChars : Str → Prop where
  | done : JsonChars []
  | plain {c : UInt8} {s} : 0x20 ≤ c.toNat → c ≠ 0x22 → c ≠ 0x5c → JsonChars s → JsonChars (c :: s)
  | short {p : Char × UInt8} {s} : p ∈ shorthands → JsonChars s → JsonChars (0x5c :: p.2 :: s)
  | hex {n h s} : Hex4 n h → JsonChars s → JsonChars (0x5c :: 0x75 :: h ++ s)

/-- The nonterminals: a value with white space around it, the inside of a list or of an object that is not empty. -/
inductive Rule where
  | value
  | elements
  | members

/-- JSON texts. -/
inductive JsonText : Rule → Str → Prop where
  | name {s w1 w2} : s = str "null" ∨ s = str "true" ∨ s = str "false" → Space w1 → Space w2 → JsonText .value (w1 ++ s ++ w2)
  | number {s w1 w2} : Number s → Space w1 → Space w2 → JsonText .value (w1 ++ s ++ w2)
  | text {s w1 w2} : JsonChars s → Space w1 → Space w2 → JsonText .value (w1 ++ (0x22 :: (s ++ [0x22])) ++ w2)
  | empty {w w1 w2} : Space w → Space w1 → Space w2 → JsonText .value (w1 ++ (0x5b :: (w ++ [0x5d])) ++ w2)
  | list {s w1 w2} : JsonText .elements s → Space w1 → Space w2 → JsonText .value (w1 ++ (0x5b :: (s ++ [0x5d])) ++ w2)
  | nothing {w w1 w2} : Space w → Space w1 → Space w2 → JsonText .value (w1 ++ (0x7b :: (w ++ [0x7d])) ++ w2)
  | object {s w1 w2} : JsonText .members s → Space w1 → Space w2 → JsonText .value (w1 ++ (0x7b :: (s ++ [0x7d])) ++ w2)
  | one {s} : JsonText .value s → JsonText .elements s
  | more {s t} : JsonText .value s → JsonText .elements t → JsonText .elements (s ++ 0x2c :: t)
  | last {k s w1 w2} : JsonChars k → Space w1 → Space w2 → JsonText .value s → JsonText .members (w1 ++ (0x22 :: (k ++ [0x22])) ++ w2 ++ 0x3a :: s)
  | member {k s t w1 w2} : JsonChars k → Space w1 → Space w2 → JsonText .value s → JsonText .members t →
      JsonText .members (w1 ++ (0x22 :: (k ++ [0x22])) ++ w2 ++ 0x3a :: (s ++ 0x2c :: t))

end Wamp.Formats
