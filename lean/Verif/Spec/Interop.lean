import Verif.Model.Acceptor
/-!
# What the WAMP specification says about the signatures of the authentication methods

The functions of other implementations, in terms of the primitives.
-/
namespace Wamp.Interop
open Wamp

/-- WAMP-CRA key: the secret, or with a salt base64 of PBKDF2 of the secret with the salt. -/
def craKeyOf (cr : Crypto) (secret : Str) (salt : Option (Str × Int × Nat)) : Str :=
  match salt with
  | none => secret
  | some (salt, iterations, keylen) => b64Encode (cr.pbkdf2 secret salt iterations keylen)

/-- WAMP-CRA signature: base64 of the HMAC-SHA256 of the challenge. -/
def craSignatureOf (cr : Crypto) (key challenge : Str) : Str := b64Encode (cr.hmac key challenge)

/-- CryptoSign signature: hex of the 64-byte signature of the challenge followed by the 32-byte challenge. -/
def cryptoSignOf (cr : Crypto) (seed challenge : Str) : Str := hexEncode (cr.sign seed challenge ++ challenge)

/-- The CHALLENGE extra another router sends for WAMP-CRA: keys in alphabetical order, numbers as the wire format gives them. -/
def craChallengeExtra (challenge : Str) (salt : Option (Str × Val × Val)) : GoMap :=
  match salt with
  | none => some [(str "challenge", .str challenge)]
  | some (salt, iterations, keylen) =>
    some [(str "challenge", .str challenge), (str "iterations", iterations), (str "keylen", keylen), (str "salt", .str salt)]

end Wamp.Interop
