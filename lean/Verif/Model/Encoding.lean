import Verif.Model.Base
/-!
# Hex and base64

The Go standard library functions used by `auth/` (`encoding/hex`, `encoding/base64.StdEncoding`),
modelled from their documented behaviour.
-/
namespace Wamp

/-- Digit alphabet `0123456789abcdef`. -/
def hexDigit (n : Nat) : UInt8 :=
  if n < 10 then UInt8.ofNat (48 + n) else UInt8.ofNat (87 + n)

/-- `hex.EncodeToString` -/
def hexEncode : Str → Str
  | [] => []
  | b :: rest => hexDigit (b.toNat / 16) :: hexDigit (b.toNat % 16) :: hexEncode rest

/-- Value of a hex digit, either case. -/
def hexVal (c : UInt8) : Option Nat :=
  let n := c.toNat
  if 48 ≤ n ∧ n ≤ 57 then some (n - 48)
  else if 97 ≤ n ∧ n ≤ 102 then some (n - 87)
  else if 65 ≤ n ∧ n ≤ 70 then some (n - 55)
  else none

/-- `hex.DecodeString`; `none` is the error return (odd length or a non-digit). -/
def hexDecode : Str → Option Str
  | [] => some []
  | [_] => none
  | a :: b :: rest =>
    match hexVal a, hexVal b, hexDecode rest with
    | some x, some y, some r => some (UInt8.ofNat (16 * x + y) :: r)
    | _, _, _ => none

/-- The standard base64 alphabet. -/
def b64Char (n : Nat) : UInt8 :=
  if n < 26 then UInt8.ofNat (65 + n)
  else if n < 52 then UInt8.ofNat (71 + n)
  else if n < 62 then UInt8.ofNat (n - 4)
  else if n = 62 then 43
  else 47

/-- Inverse of `b64Char`. -/
def b64Val (c : UInt8) : Option Nat :=
  let n := c.toNat
  if 65 ≤ n ∧ n ≤ 90 then some (n - 65)
  else if 97 ≤ n ∧ n ≤ 122 then some (n - 71)
  else if 48 ≤ n ∧ n ≤ 57 then some (n + 4)
  else if n = 43 then some 62
  else if n = 47 then some 63
  else none

/-- Padding character `=`. -/
def b64Pad : UInt8 := 61

/-- `base64.StdEncoding.EncodeToString` -/
def b64Encode : Str → Str
  | [] => []
  | [a] => [b64Char (a.toNat / 4), b64Char (a.toNat % 4 * 16), b64Pad, b64Pad]
  | [a, b] => [b64Char (a.toNat / 4), b64Char (a.toNat % 4 * 16 + b.toNat / 16),
               b64Char (b.toNat % 16 * 4), b64Pad]
  | a :: b :: c :: rest =>
    b64Char (a.toNat / 4) :: b64Char (a.toNat % 4 * 16 + b.toNat / 16) ::
    b64Char (b.toNat % 16 * 4 + c.toNat / 64) :: b64Char (c.toNat % 64) :: b64Encode rest

/-- Decoding of groups of four characters; padding only in the last group. Go does not check the
unused low bits of the last character (non-strict mode). -/
def b64Groups : Str → Option Str
  | [] => some []
  | a :: b :: c :: d :: rest =>
    match b64Val a, b64Val b with
    | some x, some y =>
      match b64Val c with
      | some z =>
        match b64Val d with
        | some w =>
          (b64Groups rest).map fun r =>
            UInt8.ofNat (x * 4 + y / 16) :: UInt8.ofNat (y % 16 * 16 + z / 4) ::
            UInt8.ofNat (z % 4 * 64 + w) :: r
        | none =>
          if d = b64Pad ∧ rest = [] then
            some [UInt8.ofNat (x * 4 + y / 16), UInt8.ofNat (y % 16 * 16 + z / 4)]
          else none
      | none =>
        if c = b64Pad ∧ d = b64Pad ∧ rest = [] then some [UInt8.ofNat (x * 4 + y / 16)] else none
    | _, _ => none
  | _ => none

/-- `base64.StdEncoding.DecodeString`: carriage returns and newlines are skipped anywhere. -/
def b64Decode (s : Str) : Option Str := b64Groups (s.filter (fun c => c ≠ 10 ∧ c ≠ 13))

end Wamp
