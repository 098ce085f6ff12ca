import Verif.Model.Validator
/-!
# `serializers/payload.go` and `EncodeCBOR`/`DecodeCBOR`

A nil byte slice and an empty one are not distinguished.
-/
namespace Wamp

/-- `decode` (serializers/payload.go:11-34) -/
def payloadDecode (arr : List Val) : Res (GoSlice × GoMap) :=
  match arr with
  | [] => .ok (none, none)                                                       -- :12-14
  | [a] => (Res.ofOption a.asSlice?).map fun args => (args, none)                -- :20-23
  | [a, k] =>
    (Res.ofOption a.asSlice?).bind fun args =>                                   -- :20-23
      (Res.ofOption k.asMap?).map fun kwargs => (args, kwargs)                   -- :26-31
  | _ => .err                                                                    -- :16-18

/-- `prepareForEncode` (serializers/payload.go:36-55); the nil result is the empty list. -/
def prepareForEncode (args : GoSlice) (kwargs : GoMap) : List Val :=
  let a := args.getD []
  let k := kwargs.getD []
  (if a.length ≠ 0 then [Val.ofSlice args] else []) ++
  (if k.length ≠ 0 then (if a.length = 0 then [Val.arr []] else []) ++ [Val.ofMap kwargs] else [])

/-- `JSONEncodePayload`, `CBOREncodePayload`, `MsgPackEncodePayload` (serializers/payload.go:57-64, 75-82, 93-100). -/
def encodePayload (c : Codec) (args : GoSlice) (kwargs : GoMap) : Res Str :=
  let data := prepareForEncode args kwargs
  if data.length = 0 then .ok [] else Res.ofOption (c.enc data)

/-- `JSONDecodePayload`, `CBORDecodePayload`, `MsgPackDecodePayload` (serializers/payload.go:66-73, 84-91, 102-109). -/
def decodePayload (c : Codec) (b : Str) : Res (GoSlice × GoMap) :=
  (Res.ofOption (c.dec b)).bind payloadDecode

/-- The three wire formats (serializers/json.go:9, msgpack.go:9, cbor.go:12). -/
structure Codecs where
  json : Codec
  cbor : Codec
  msgpack : Codec

/-- `DeserializePayload` (serializers/payload.go:111-124) -/
def deserializePayload (cs : Codecs) (id : Nat) (payload : Str) : Res (GoSlice × GoMap) :=
  match id with
  | 0 => .ok (some [.bytes payload], some [])
  | 1 => decodePayload cs.json payload
  | 3 => decodePayload cs.cbor payload
  | 2 => decodePayload cs.msgpack payload
  | _ => .err

/-- `SerializePayload` (serializers/payload.go:126-152) -/
def serializePayload (cs : Codecs) (id : Nat) (args : GoSlice) (kwargs : GoMap) : Res Str :=
  match id with
  | 0 =>
    let a := args.getD []
    let k := kwargs.getD []
    if a.length = 0 ∧ k.length = 0 then .ok []                                   -- :129-131
    else if a.length ≠ 1 ∨ k.length ≠ 0 then .err                                -- :133-135
    else (item a 0).bind fun v => Res.ofOption v.asBytes?                        -- :137-142
  | 1 => encodePayload cs.json args kwargs
  | 3 => encodePayload cs.cbor args kwargs
  | 2 => encodePayload cs.msgpack args kwargs
  | _ => .err

/-- `EncodeCBOR` (serializers/cbor.go:49-59): both elements are always present, nil or not. -/
def encodeCBOR (c : Codec) (args : GoSlice) (kwargs : GoMap) : Res Str :=
  Res.ofOption (c.enc [Val.ofSlice args, Val.ofMap kwargs])

/-- `DecodeCBOR` (serializers/cbor.go:61-78): indexes the decoded list without checking its length. -/
def decodeCBOR (c : Codec) (b : Str) : Res (GoSlice × GoMap) :=
  (Res.ofOption (c.dec b)).bind fun payload =>
    (item payload 0).bind fun a =>
      (Res.ofOption a.asSlice?).bind fun args =>
        (item payload 1).bind fun k =>
          (Res.ofOption k.asMap?).map fun kwargs => (args, kwargs)

end Wamp
