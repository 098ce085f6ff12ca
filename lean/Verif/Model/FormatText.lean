import Verif.Model.RawSocket
import Verif.Model.Payload
import Verif.Model.Auth
import Verif.Model.ErrorText
/-!
# The texts of the errors of handshakes of raw sockets, of payloads and of signatures

Every definition gives the text of the error the call returns, or `none` if it returns none (or panics).
-/
namespace Wamp.FormatText
open ErrorText (dec)

/-- The errors of `SendHandshake` (transports/rawsocket.go:46-58) -/
def sendHandshakeError (f2i : GoFloat → Int) (hs : RawSocket.Handshake) : Option Str :=
  if hs.maxMessageSize > RawSocket.protocolMaxMsgSize then some (str "maxMessageSize must not be more than 16 megabytes")    -- :47-49
  else
    match RawSocket.shl1 (RawSocket.log2Int f2i hs.maxMessageSize) with                                                      -- :51-52
    | .ok p =>
      if p ≠ hs.maxMessageSize ∨ RawSocket.log2Int f2i hs.maxMessageSize < 9 then
        some (str "maxMessageSize must be a power of 2 and >= 512")                                                          -- :52-54
      else none
    | _ => none

/-- The errors of `ReceiveHandshake` (transports/rawsocket.go:60-76) -/
def receiveHandshakeError (data : Str) : Option Str :=
  match data with
  | [d0, _, d2, d3] =>
    if d0 ≠ RawSocket.magic then some (str "expected MAGIC, got " ++ dec d0.toNat)                                           -- :64-66
    else if d2 ≠ 0 ∨ d3 ≠ 0 then
      some (str "expected 0x00 for third and fourth byte, got " ++ dec d2.toNat ++ str " and " ++ dec d3.toNat)              -- :67-69
    else none
  | _ => some (str "expected 4 bytes for handshake response, got " ++ dec data.length)                                       -- :61-63

/-- The errors of `decode` (serializers/payload.go:11-34) -/
def payloadError (arr : List Val) : Option Str :=
  match arr with
  | [] => none                                                                                                               -- :12-14
  | [a] => if a.asSlice?.isSome then none else some (str "args element is not []any")                                        -- :20-23
  | [a, k] =>
    if a.asSlice?.isSome then
      (if k.asMap?.isSome then none else some (str "kwargs element is not map[string]any"))                                  -- :27-30
    else some (str "args element is not []any")
  | _ => some (str "too many args to decode")                                                                                -- :16-18

/-- The errors of `JSONDecodePayload`, `CBORDecodePayload` and `MsgPackDecodePayload` (serializers/payload.go:66-73, 84-91, 102-109);
`library b` is the text of the decoding package's error for the bytes `b`. -/
def decodeError (library : Str → Str) (c : Codec) (b : Str) : Option Str :=
  match c.dec b with
  | none => some (library b)
  | some arr => payloadError arr

/-- The errors of `DeserializePayload` (serializers/payload.go:111-124); `library` as above, for each format. -/
def deserializeError (library : Nat → Str → Str) (cs : Codecs) (id : Nat) (payload : Str) : Option Str :=
  match id with
  | 0 => none
  | 1 => decodeError (library 1) cs.json payload
  | 3 => decodeError (library 3) cs.cbor payload
  | 2 => decodeError (library 2) cs.msgpack payload
  | n => some (str "serializer " ++ dec n ++ str " not recognized")                                                          -- :122

/-- The errors of `JSONEncodePayload`, `CBOREncodePayload` and `MsgPackEncodePayload` (serializers/payload.go:57-64, 75-82, 93-100);
`cause` is the text of the encoding package's error. -/
def encodeError (cause : Str) (c : Codec) (args : GoSlice) (kwargs : GoMap) : Option Str :=
  if (prepareForEncode args kwargs).length = 0 then none
  else if (c.enc (prepareForEncode args kwargs)).isSome then none else some cause

/-- The errors of `SerializePayload` (serializers/payload.go:126-152) -/
def serializeError (cause : Str) (cs : Codecs) (id : Nat) (args : GoSlice) (kwargs : GoMap) : Option Str :=
  match id with
  | 0 =>
    if (args.getD []).length = 0 ∧ (kwargs.getD []).length = 0 then none                                                     -- :129-131
    else if (args.getD []).length ≠ 1 ∨ (kwargs.getD []).length ≠ 0 then
      some (str "serializer " ++ dec 0 ++ str " requires exactly 1 arg")                                                     -- :133-135
    else
      match (args.getD [])[0]? with
      | none => none
      | some v => if v.asBytes?.isSome then none else some (str "serializer " ++ dec 0 ++ str " requires []byte")            -- :137-140
  | 1 => encodeError cause cs.json args kwargs
  | 3 => encodeError cause cs.cbor args kwargs
  | 2 => encodeError cause cs.msgpack args kwargs
  | n => some (str "serializer " ++ dec n ++ str " not recognized")                                                          -- :150

/-- The errors of `DecodeCBOR` (serializers/cbor.go:61-78) -/
def decodeCBORError (types : Nat → Str) (library : Str → Str) (c : Codec) (b : Str) : Option Str :=
  match c.dec b with
  | none => some (str "failed to unmarshal cbor payload: " ++ library b)                                                     -- :63-65
  | some payload =>
    match payload[0]? with
    | none => none
    | some a =>
      if a.asSlice?.isSome then
        match payload[1]? with
        | none => none
        | some k =>
          if k.asMap?.isSome then none else some (str "invalid kwargs type: " ++ ErrorText.typeName types k)                 -- :72-75
      else some (str "invalid args type: " ++ ErrorText.typeName types a)                                                    -- :67-70

/-- The errors of `SignCryptoSignChallenge` (auth/cryptosign.go:77-87); `hexText` is the text of the error of `hex.DecodeString`. -/
def signError (hexText : Str → Str) (challenge : Str) : Option Str :=
  match hexDecode challenge with
  | none => some (str "failed to decode challenge: " ++ hexText challenge)
  | some _ => none

/-- The errors of `VerifyCryptoSignSignature` (auth/cryptosign.go:89-105) -/
def verifyError (hexText : Str → Str) (signature : Str) : Option Str :=
  match hexDecode signature with
  | none => some (hexText signature)
  | some b =>
    if b.length ≠ 96 then
      some (str "signed message has invalid length (was " ++ dec b.length ++ str ", but should have been 96)")
    else none

end Wamp.FormatText
