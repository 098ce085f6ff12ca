import Verif.Model.Messages
import Verif.Model.Encoding
/-!
# `auth/*.go`

Cryptographic primitives are parameters: every theorem holds for all functions of these types (or for those meeting an
explicit contract).
-/
namespace Wamp

/-- The primitives the code calls. -/
structure Crypto where
  /-- HMAC-SHA256: key, message. -/
  hmac : Str → Str → Str
  /-- PBKDF2-HMAC-SHA256: password, salt, iterations, key length. -/
  pbkdf2 : Str → Str → Int → Nat → Str
  /-- Ed25519 public key of a 32-byte seed. -/
  pubOfSeed : Str → Str
  /-- Ed25519 signature: seed, message. -/
  sign : Str → Str → Str
  /-- `ed25519.Verify`: public key, message, signature. -/
  verify : Str → Str → Str → Bool

/-- The text constants `auth.Anonymous` etc. (auth/authenticator.go:11-16). -/
def mAnonymous : Str := str "anonymous"
/-- auth/authenticator.go:13 -/
def mTicket : Str := str "ticket"
/-- auth/authenticator.go:14 -/
def mCRA : Str := str "wampcra"
/-- auth/authenticator.go:15 -/
def mCryptoSign : Str := str "cryptosign"

/-- The message of the error that `SelectAuthMethod` returns (auth/helpers.go:27; `%v` of a `[]string`). -/
def unsupportedText (ms : List Str) : Str :=
  str "server does not have [" ++ (ms.intersperse (str " ")).flatten ++ str "] auth enabled"

/-- `SelectAuthMethod` (auth/helpers.go:9-31); `none` is the error return. A method that is the empty string is treated as
"none found" even when allowed (line 26). -/
def selectAuthMethod (allowed proposed : List Str) : Option Str :=
  if proposed.length = 0 then some mAnonymous
  else
    match proposed.find? (fun p => allowed.contains p) with
    | none => none
    | some m => if m = [] then none else some m

/-- The proposals collected in `unsupported` before the loop ends (auth/helpers.go:17-24). -/
def unsupportedMethods (allowed proposed : List Str) : List Str :=
  proposed.takeWhile (fun p => !allowed.contains p)

section
variable (cr : Crypto)

/-- `SignWAMPCRAChallengeBytes` (auth/wampcra.go:72-76) -/
def signCRABytes (ch key : Str) : Str := cr.hmac key ch

/-- `SignWAMPCRAChallenge` (auth/wampcra.go:80-82) -/
def signCRA (ch key : Str) : Str := b64Encode (signCRABytes cr ch key)

/-- `DeriveWAMPCRAKey` (auth/wampcra.go:84-101). `pbkdf2.Key` panics on a negative key length (it slices its
output with it); memory exhaustion for huge lengths is not modelled. -/
def deriveCRAKey (salt secret : Str) (iterations keyLength : Int) : Res Str :=
  let iterations := if iterations = 0 then 1000 else iterations
  let keyLength := if keyLength = 0 then 32 else keyLength
  if keyLength < 0 then .panic
  else .ok (b64Encode (cr.pbkdf2 secret salt iterations keyLength.toNat))

/-- `VerifyWAMPCRASignature` (auth/wampcra.go:108-115). `hmac.Equal` compares for equality. -/
def verifyCRA (sig chal key : Str) : Bool :=
  match b64Decode sig with
  | none => false
  | some b => decide (b = signCRABytes cr chal key)

/-- `(*wampcraAuthenticator).Authenticate` (auth/wampcra.go:46-68): signature and extra of the AUTHENTICATE. -/
def craAuthenticate (secret : Str) (authExtra : GoMap) (extra : GoMap) : Res (Str × GoMap) :=
  let ch := extra.text (str "challenge")
  let salt := extra.text (str "salt")
  let rawSecret : Res Str :=
    if salt ≠ [] then
      let iters := ((extra.get (str "iterations")).bind asInt).getD 0
      let keylen := ((extra.get (str "keylen")).bind asInt).getD 0
      deriveCRAKey cr salt secret iters keylen
    else .ok secret
  rawSecret.bind fun k => .ok (signCRA cr ch k, authExtra)

/-- `SignCryptoSignChallenge` (auth/cryptosign.go:77-87); the private key is given by its seed. -/
def signCryptoSign (challenge seed : Str) : Option Str :=
  match hexDecode challenge with
  | none => none
  | some raw => some (hexEncode (cr.sign seed raw) ++ challenge)

/-- `copy(pubkey[:], publicKey)` into a zeroed `[32]byte` (auth/cryptosign.go:100-101). -/
def copy32 (b : Str) : Str := b.take 32 ++ List.replicate (32 - b.length) 0

/-- `sign.Open` (golang.org/x/crypto/nacl/sign): at least 64 bytes, the first 64 a signature of the rest. -/
def signOpen (signed pub : Str) : Bool :=
  if signed.length < 64 then false else cr.verify pub (signed.drop 64) (signed.take 64)

/-- `VerifyCryptoSignSignature` (auth/cryptosign.go:89-105); `none` is the error return. -/
def verifyCryptoSign (signature publicKey : Str) : Option Bool :=
  match hexDecode signature with
  | none => none
  | some sb => if sb.length ≠ 96 then none else some (signOpen cr sb (copy32 publicKey))

/-- A built-in client authenticator. -/
inductive ClientAuth where
  /-- auth/anonymous.go:11-14 -/
  | anonymous (authID : Str) (authExtra : GoMap)
  /-- auth/ticket.go:9-14 -/
  | ticket (authID : Str) (authExtra : GoMap) (ticket : Str)
  /-- auth/wampcra.go:19-24 -/
  | cra (authID : Str) (authExtra : GoMap) (secret : Str)
  /-- auth/cryptosign.go:17-22; the private key is given by its seed -/
  | cryptosign (authID : Str) (authExtra : GoMap) (seed : Str)

/-- `NewAnonymousAuthenticator` (auth/anonymous.go:16-25) -/
def newAnonymous (authID : Str) (authExtra : GoMap) : ClientAuth := .anonymous authID (orEmpty authExtra)
/-- `NewTicketAuthenticator` (auth/ticket.go:16-22) -/
def newTicket (authID ticket : Str) (authExtra : GoMap) : ClientAuth := .ticket authID authExtra ticket
/-- `NewWAMPCRAAuthenticator` (auth/wampcra.go:26-32) -/
def newCRA (authID secret : Str) (authExtra : GoMap) : ClientAuth := .cra authID authExtra secret

/-- `NewCryptoSignAuthenticator` (auth/cryptosign.go:24-53). `ed25519.NewKeyFromSeed` panics unless the seed has 32
bytes. The Go code adds `pubkey` to the caller's map; the model returns the new map. -/
def newCryptoSign (authID privateKeyHex : Str) (authExtra : GoMap) : Res ClientAuth :=
  match hexDecode privateKeyHex with
  | none => .err
  | some raw =>
    if raw.length ≠ 32 then .panic
    else
      let publicKeyHex := hexEncode (cr.pubOfSeed raw)
      let d := authExtra.getD []
      match (dget d (str "pubkey")).getD .nil with
      | .nil => .ok (.cryptosign authID (some (dset d (str "pubkey") (.str publicKeyHex))) raw)
      | .str val => if val ≠ publicKeyHex then .err else .ok (.cryptosign authID (some d) raw)
      | _ => .ok (.cryptosign authID (some d) raw)

/-- `AuthMethod()` (auth/anonymous.go:27-29, ticket.go:24-26, wampcra.go:34-36, cryptosign.go:55-57) -/
def ClientAuth.method : ClientAuth → Str
  | .anonymous .. => mAnonymous
  | .ticket .. => mTicket
  | .cra .. => mCRA
  | .cryptosign .. => mCryptoSign

/-- `AuthID()` (auth/anonymous.go:31-33, ticket.go:28-30, wampcra.go:38-40, cryptosign.go:59-61) -/
def ClientAuth.authID : ClientAuth → Str
  | .anonymous i _ => i
  | .ticket i _ _ => i
  | .cra i _ _ => i
  | .cryptosign i _ _ => i

/-- `AuthExtra()` (auth/anonymous.go:35-37, ticket.go:32-34, wampcra.go:42-44, cryptosign.go:63-65) -/
def ClientAuth.authExtra : ClientAuth → GoMap
  | .anonymous _ e => e
  | .ticket _ e _ => e
  | .cra _ e _ => e
  | .cryptosign _ e _ => e

/-- `Authenticate(challenge)` on the extra of the CHALLENGE: signature and extra of the AUTHENTICATE
(auth/anonymous.go:39-41, ticket.go:36-38, wampcra.go:46-68, cryptosign.go:67-75). -/
def ClientAuth.authenticate : ClientAuth → GoMap → Res (Str × GoMap)
  | .anonymous .., _ => .err
  | .ticket _ e t, _ => .ok (t, e)
  | .cra _ e secret, extra => craAuthenticate cr secret e extra
  | .cryptosign _ e seed, extra =>
    (Res.ofOption (signCryptoSign cr (extra.text (str "challenge")) seed)).bind fun s => .ok (s, e)

/-- `GenerateCryptoSignChallenge` (auth/cryptosign.go:107-115) given the 32 random bytes; the failure of the system's random
source is the `none` of the acceptor's environment. -/
def cryptoSignChallenge (random : Str) : Str := hexEncode random

/-- `GenerateCryptoSignKeyPair` (auth/cryptosign.go:117-131) given the random seed: public and private key. -/
def cryptoSignKeyPair (seed : Str) : Str × Str := (hexEncode (cr.pubOfSeed seed), hexEncode seed)

end

/-- What a server authenticator is asked: `Request` (auth/authenticator.go:32-69), with the public key of
`RequestCryptoSign` (105-120) and the ticket of `TicketRequest` (122-137). -/
structure AuthReq where
  method : Str
  realm : Str
  authID : Str
  authExtra : GoMap
  publicKey : Option Str := none
  ticket : Option Str := none

/-- The extra fields of `CRAResponse` (auth/authenticator.go:139-146). -/
structure CRAInfo where
  secret : Str
  salt : Str
  iterations : Int
  keyLen : Int
  deriving DecidableEq, Repr

/-- A non-nil `Response` (auth/authenticator.go:71-103); `cra` is present for a `*CRAResponse`. The TTL is never read by the
modelled code. A `CRAResponse` built by hand around a nil `Response` is not modelled. -/
structure AuthResp where
  authID : Str
  authRole : Str
  cra : Option CRAInfo := none
  deriving DecidableEq, Repr

/-- `NewCRAResponse` (auth/authenticator.go:148-154) -/
def newCRAResponse (authID authRole secret : Str) : AuthResp := ⟨authID, authRole, some ⟨secret, [], 0, 0⟩⟩
/-- `NewCRAResponseSalted` (auth/authenticator.go:156-165) -/
def newCRAResponseSalted (authID authRole secret salt : Str) (iterations keyLen : Int) : AuthResp :=
  ⟨authID, authRole, some ⟨secret, salt, iterations, keyLen⟩⟩

/-- What `ServerAuthenticator.Authenticate` returned: `(nil, err)`, `(nil, nil)` or `(response, nil)`. -/
inductive AuthOut where
  | err (text : Str)
  | nilResp
  | ok (r : AuthResp)

/-- The key the acceptor verifies a WAMP-CRA signature with (acceptor.go:221-226). -/
def craKey (cr : Crypto) (i : CRAInfo) : Res Str :=
  if i.salt = [] then .ok i.secret else deriveCRAKey cr i.salt i.secret i.iterations i.keyLen

/-- `NewRequest` (auth/authenticator.go:39-46) on the fields of a HELLO. -/
def newRequest (realm authID : Str) (authExtra : GoMap) (method : Str) : AuthReq := ⟨method, realm, authID, authExtra, none, none⟩
/-- `NewCryptoSignRequest` (auth/authenticator.go:105-110) -/
def newCryptoSignRequest (realm authID : Str) (authExtra : GoMap) (publicKey : Str) : AuthReq :=
  ⟨mCryptoSign, realm, authID, authExtra, some publicKey, none⟩
/-- `NewTicketRequest` (auth/authenticator.go:122-127) -/
def newTicketRequest (realm authID : Str) (authExtra : GoMap) (ticket : Str) : AuthReq :=
  ⟨mTicket, realm, authID, authExtra, none, some ticket⟩

/-! ### `ISO8601` (auth/iso8601.go:9-21): the zone suffix -/

/-- Two decimal digits, as `%02d` prints a number (more digits when it does not fit). -/
def pad2 (n : Nat) : Str := if n < 10 then str "0" ++ str (toString n) else str (toString n)

/-- The suffix appended to the formatted local time for a zone offset in seconds (auth/iso8601.go:12-20). The local
time itself is `localTime` in `Model/Challenge.lean`. -/
def zoneSuffix (offset : Int) : Str :=
  if offset = 0 then str "Z"
  else if offset < 0 then str "-" ++ pad2 ((-offset).toNat / 3600) ++ pad2 ((-offset).toNat % 3600 / 60)
  else str "+" ++ pad2 (offset.toNat / 3600) ++ pad2 (offset.toNat % 3600 / 60)

end Wamp
