import Verif.Model.Json
import Verif.Model.Auth
import Verif.Model.Acceptor
/-!
# Timestamps and the text of WAMP-CRA challenges

`auth/iso8601.go` and `GenerateWAMPCRAChallenge` (auth/wampcra.go:117-149).
-/
namespace Wamp

/-- A reading of the clock: local date and time and the zone's offset in seconds (package `time`). -/
structure Clock where
  year : Nat
  month : Nat
  day : Nat
  hour : Nat
  minute : Nat
  second : Nat
  offset : Int
  deriving DecidableEq

/-- Two decimal digits. -/
def digits2 (n : Nat) : Str := [UInt8.ofNat (48 + n / 10 % 10), UInt8.ofNat (48 + n % 10)]

/-- `t.Format("2006-01-02T15:04:05")` (auth/iso8601.go:10) for years 0 to 9999. -/
def localTime (t : Clock) : Str :=
  digits2 (t.year / 100) ++ digits2 (t.year % 100) ++ str "-" ++ digits2 t.month ++ str "-" ++ digits2 t.day ++ str "T" ++
    digits2 t.hour ++ str ":" ++ digits2 t.minute ++ str ":" ++ digits2 t.second

/-- `ISO8601` (auth/iso8601.go:9-21) -/
def iso8601 (t : Clock) : Str := localTime t ++ zoneSuffix t.offset

/-- What one call of `GenerateWAMPCRAChallenge` draws: the random bytes of `makeNonce` (auth/wampcra.go:141-149, `none` when the random
source fails), the session number passed by the acceptor (a fresh `GenerateID()`, acceptor.go:144) and the time. -/
structure Draw where
  nonce : Option Str
  session : UInt64
  now : Clock

/-- The map built at auth/wampcra.go:123-131, keys sorted. -/
def craData (nonce now authid authrole provider : Str) (session : Nat) : Dict :=
  [(str "authid", .str authid), (str "authmethod", .str mCRA), (str "authprovider", .str provider), (str "authrole", .str authrole),
   (str "nonce", .str nonce), (str "session", .u64 session), (str "timestamp", .str now)]

/-- `GenerateWAMPCRAChallenge` (auth/wampcra.go:117-139). -/
def generateCRAChallenge (d : Draw) (authid authrole provider : Str) : Option Str :=
  match d.nonce with
  | none => none
  | some b => Json.enc (.map (craData (b64Encode b) (iso8601 d.now) authid authrole provider d.session.toNat))

/-- The challenge text the acceptor asks for (acceptor.go:144). -/
def challengeFor (d : Draw) (r : AuthResp) : Option Str :=
  generateCRAChallenge d r.authID r.authRole (str "dynamic")

end Wamp
