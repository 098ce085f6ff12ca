import Verif.Model.Value
/-!
# `transports/rawsocket.go`

Go `int` is a mathematical integer here where the code cannot overflow; `bytesToInt` wraps at 64 bits.
-/
namespace Wamp.RawSocket
open Wamp

/-- `MAGIC` (transports/rawsocket.go:10) -/
def magic : UInt8 := 0x7F
/-- `ProtocolMaxMsgSize` (transports/rawsocket.go:11) -/
def protocolMaxMsgSize : Int := 2 ^ 24

/-- `Handshake` (transports/rawsocket.go:26-29) -/
structure Handshake where
  serializer : Int
  maxMessageSize : Int
  deriving DecidableEq, Repr

/-- `int(math.Log2(float64(n)))` (transports/rawsocket.go:51).
For `n ≥ 1` this is the integer part of the logarithm (`math.Log2` is exact on powers of two).
`Log2(0)` is `-Inf` and `Log2` of a negative number is `NaN`; converting those to `int` is
implementation-dependent, so the platform's conversion `f2i` is a parameter. -/
def log2Int (f2i : GoFloat → Int) (n : Int) : Int :=
  if 0 < n then (Nat.log2 n.toNat : Int)
  else if n = 0 then f2i (.inf true)
  else f2i .nan

/-- `1 << k` on Go `int`: panics for a negative count, is 0 for a count of 64 or more. -/
def shl1 (k : Int) : Res Int :=
  if k < 0 then .panic
  else if k < 63 then .ok (2 ^ k.toNat)
  else if k = 63 then .ok (-(2 ^ 63))
  else .ok 0

/-- `SendHandshake` (transports/rawsocket.go:46-58) -/
def sendHandshake (f2i : GoFloat → Int) (hs : Handshake) : Res Str :=
  if hs.maxMessageSize > protocolMaxMsgSize then .err          -- :47-49
  else
    let log2 := log2Int f2i hs.maxMessageSize                  -- :51
    (shl1 log2).bind fun p =>                                  -- :52
      if p ≠ hs.maxMessageSize ∨ log2 < 9 then .err
      else
        -- :56  byte((log2-9)<<4 | (int(serializer) & 0x0F))
        let b1 : Nat := ((log2 - 9).toNat <<< 4) ||| (hs.serializer % 16).toNat
        .ok [magic, UInt8.ofNat b1, 0, 0]

/-- `ReceiveHandshake` (transports/rawsocket.go:60-76) -/
def receiveHandshake (data : Str) : Res Handshake :=
  match data with
  | [d0, d1, d2, d3] =>                                        -- :61-63 length check
    if d0 ≠ magic then .err                                    -- :64-66
    else if d2 ≠ 0 ∨ d3 ≠ 0 then .err                          -- :67-69
    else
      let serializer := d1 &&& 0x0F                            -- :71
      let sizeShift := (d1 >>> 4) + 9                          -- :72
      .ok ⟨serializer.toNat, 2 ^ sizeShift.toNat⟩              -- :73-75
  | _ => .err

/-- `MessageHeader` (transports/rawsocket.go:78-81); `kind` is a byte. -/
structure MessageHeader where
  kind : UInt8
  length : Int
  deriving DecidableEq, Repr

/-- `IntToBytes` (transports/rawsocket.go:112-118): arithmetic shift, mask and truncation. -/
def intToBytes (i : Int) : Str :=
  [UInt8.ofNat ((i / 2 ^ 16) % 256).toNat, UInt8.ofNat ((i / 2 ^ 8) % 256).toNat,
   UInt8.ofNat (i % 256).toNat]

/-- Two's complement reading of a 64-bit word. -/
def toSigned64 (n : Nat) : Int := if n < 2 ^ 63 then (n : Int) else (n : Int) - 2 ^ 64

/-- `BytesToInt` (transports/rawsocket.go:120-127) on 64-bit words. -/
def bytesToInt (b : Str) : Int :=
  toSigned64 (b.foldl (fun n x => ((n <<< 8) % 2 ^ 64) ||| x.toNat) 0)

/-- `SendMessageHeader` (transports/rawsocket.go:98-106) -/
def sendMessageHeader (h : MessageHeader) : Str := h.kind :: intToBytes h.length

/-- `ReceiveMessageHeader` (transports/rawsocket.go:108-110): indexing the empty slice panics. -/
def receiveMessageHeader (data : Str) : Res MessageHeader :=
  match data with
  | [] => .panic
  | k :: rest => .ok ⟨k, bytesToInt rest⟩

end Wamp.RawSocket
