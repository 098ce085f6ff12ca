import Verif.Model.Payload
import Verif.Model.Encoding
import Verif.Spec.RouterText
import Verif.Spec.ErrorText
/-!
# What the errors about handshakes of raw sockets, payloads and signatures say, and when that is so
-/
namespace Wamp.Spec.FormatText
open Wamp.Spec.RouterText (num)

/-- `SendHandshake` for a maximal message size. -/
inductive SendSays (size : Int) : Str → Prop where
  | big : 16 * 1024 * 1024 < size → SendSays size (str "maxMessageSize must not be more than 16 megabytes")
  | power : size ≤ 16 * 1024 * 1024 → (¬∃ k : Nat, size = 2 ^ k ∧ 512 ≤ size) →
      SendSays size (str "maxMessageSize must be a power of 2 and >= 512")

/-- `ReceiveHandshake` for the bytes received. -/
inductive ReceiveSays : Str → Str → Prop where
  | length (data : Str) : data.length ≠ 4 → ReceiveSays data (str "expected 4 bytes for handshake response, got " ++ num data.length)
  | magic (a b c d : UInt8) : a ≠ 0x7F → ReceiveSays [a, b, c, d] (str "expected MAGIC, got " ++ num a.toNat)
  | reserved (b c d : UInt8) : ¬(c = 0 ∧ d = 0) →
      ReceiveSays [0x7F, b, c, d] (str "expected 0x00 for third and fourth byte, got " ++ num c.toNat ++ str " and " ++ num d.toNat)

/-- The value is a list (`[]any`). -/
def IsList (v : Val) : Prop := v = .arrNil ∨ ∃ l, v = .arr l
/-- The value is a dictionary (`map[string]any`). -/
def IsDict (v : Val) : Prop := v = .mapNil ∨ ∃ d, v = .map d

/-- The numbers of the formats. -/
def formats (cs : Codecs) : List (Nat × Codec) := [(1, cs.json), (2, cs.msgpack), (3, cs.cbor)]

/-- `DeserializePayload`. -/
inductive DeserializeSays (library : Nat → Str → Str) (cs : Codecs) : Nat → Str → Str → Prop where
  | unknown (n : Nat) (b : Str) : 3 < n → DeserializeSays library cs n b (str "serializer " ++ num n ++ str " not recognized")
  | undecodable (n : Nat) (c : Codec) (b : Str) : (n, c) ∈ formats cs → c.dec b = none → DeserializeSays library cs n b (library n b)
  | many (n : Nat) (c : Codec) (b : Str) (l : List Val) : (n, c) ∈ formats cs → c.dec b = some l → 2 < l.length →
      DeserializeSays library cs n b (str "too many args to decode")
  | args (n : Nat) (c : Codec) (b : Str) (a : Val) (l : List Val) : (n, c) ∈ formats cs → c.dec b = some (a :: l) → l.length ≤ 1 → ¬IsList a →
      DeserializeSays library cs n b (str "args element is not []any")
  | kwargs (n : Nat) (c : Codec) (b : Str) (a k : Val) : (n, c) ∈ formats cs → c.dec b = some [a, k] → IsList a → ¬IsDict k →
      DeserializeSays library cs n b (str "kwargs element is not map[string]any")

/-- `SerializePayload`: `args` and `kwargs` are the elements of the two. -/
inductive SerializeSays (cause : Str) (cs : Codecs) (args : GoSlice) (kwargs : GoMap) : Nat → Str → Prop where
  | unknown (n : Nat) : 3 < n → SerializeSays cause cs args kwargs n (str "serializer " ++ num n ++ str " not recognized")
  | encoder (n : Nat) (c : Codec) : (n, c) ∈ formats cs → (args.getD [] ≠ [] ∨ kwargs.getD [] ≠ []) → c.enc (prepareForEncode args kwargs) = none →
      SerializeSays cause cs args kwargs n cause
  | count : (args.getD [] ≠ [] ∨ kwargs.getD [] ≠ []) → ¬((args.getD []).length = 1 ∧ kwargs.getD [] = []) →
      SerializeSays cause cs args kwargs 0 (str "serializer 0 requires exactly 1 arg")
  | bytes (v : Val) : args = some [v] → kwargs.getD [] = [] → (∀ b, v ≠ .bytes b) →
      SerializeSays cause cs args kwargs 0 (str "serializer 0 requires []byte")

/-- `DecodeCBOR`. -/
inductive DecodeSays (types : Nat → Str) (library : Str → Str) (c : Codec) (b : Str) : Str → Prop where
  | undecodable : c.dec b = none → DecodeSays types library c b (str "failed to unmarshal cbor payload: " ++ library b)
  | args (a : Val) (l : List Val) : c.dec b = some (a :: l) → ¬IsList a →
      DecodeSays types library c b (str "invalid args type: " ++ Err.goType types a)
  | kwargs (a k : Val) (l : List Val) : c.dec b = some (a :: k :: l) → IsList a → ¬IsDict k →
      DecodeSays types library c b (str "invalid kwargs type: " ++ Err.goType types k)

end Wamp.Spec.FormatText
