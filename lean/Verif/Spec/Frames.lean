import Verif.Model.RawSocket
/-!
# Using the frame header on a byte stream

What a user of `transports/rawsocket.go` does with `SendMessageHeader` and `ReceiveMessageHeader`: write header and payload of every
message one after the other; read four bytes, then as many as the header says, and so on.
-/
namespace Wamp.RawSocket
open Wamp

/-- The bytes written for a list of messages (kind and payload). -/
def writeFrames : List (UInt8 × Str) → Str
  | [] => []
  | (kind, payload) :: rest => sendMessageHeader ⟨kind, payload.length⟩ ++ payload ++ writeFrames rest

/-- The complete messages at the beginning of the bytes read so far, at most `n`. -/
def readFrames : Nat → Str → List (UInt8 × Str)
  | 0, _ => []
  | n + 1, s =>
    if s.length < 4 then []
    else
      match receiveMessageHeader (s.take 4) with
      | .ok h =>
        if (s.drop 4).length < h.length then []
        else (h.kind, (s.drop 4).take h.length.toNat) :: readFrames n ((s.drop 4).drop h.length.toNat)
      | _ => []

end Wamp.RawSocket
