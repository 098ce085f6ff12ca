import Verif.Model.Acceptor
import Verif.Model.Cbor
import Verif.Model.MsgPack
import Verif.Model.Json
/-!
# The tests of `/repo` replayed on the model: logging in

The assertions of `joiner_acceptor_test.go` evaluated on the model, with the model's three serializers.  HMAC and Ed25519 are parameters of
the model; here they are stand-ins with the key pair of the tests.
-/
namespace Wamp.Conformance.Login

/-- joiner_acceptor_test.go:15-22 -/
def realm : Str := str "realm1"
def authID : Str := str "foo"
def ticket : Str := str "fooTicket"
def secret : Str := str "barSecret"
def privateKey : Str := str "175604dcce3944595dad640da1676d5e1e1a3950f872f177b1269981140f1c5d"
def publicKey : Str := str "8096cadfd3af87662d4c6589605801c1e2841c4e2cf3d6c30fb187c09c76c5ac"

/-- Stand-in for Ed25519: the test's key pair; other seeds are their own public keys. -/
def pub (seed : Str) : Str := if hexEncode seed = privateKey then (hexDecode publicKey).getD [] else seed
def crypto : Crypto where
  hmac k m := k ++ [0] ++ m
  pbkdf2 p s _ n := (p ++ s ++ List.replicate n 0).take n
  pubOfSeed := pub
  sign seed m := seed ++ m
  verify p m sig := decide (pub (sig.take 32) = p) && decide (sig.drop 32 = m)

/-- `(*Authenticator).Authenticate` (joiner_acceptor_test.go:35-76) -/
def authn (q : AuthReq) : AuthOut :=
  if q.method = mAnonymous then
    if q.realm = realm ∧ q.authID = authID then .ok ⟨q.authID, mAnonymous, none⟩ else .err (str "invalid realm")
  else if q.method = mTicket then
    match q.ticket with
    | none => .err (str "invalid request")
    | some t => if q.realm = realm ∧ t = ticket then .ok ⟨q.authID, mAnonymous, none⟩ else .err (str "invalid ticket")
  else if q.method = mCRA then
    if q.realm = realm ∧ q.authID = authID then .ok (newCRAResponse q.authID mAnonymous secret) else .err (str "invalid realm")
  else if q.method = mCryptoSign then
    match q.publicKey with
    | none => .err (str "invalid request")
    | some k => if q.realm = realm ∧ k = publicKey then .ok ⟨q.authID, mAnonymous, none⟩ else .err (str "unknown publickey")
  else .err (str "unknown authentication method")

/-- The acceptor's surroundings in both calls: all four methods (joiner_acceptor_test.go:31-33) and some random values. -/
def env : Acceptor.Env :=
  ⟨[mAnonymous, mTicket, mCRA, mCryptoSign], authn, 12345, some (str "{\"nonce\":\"x\"}"), some (hexEncode (List.replicate 32 7))⟩

/-- How a test ends: without an error, with the reason of an ABORT, or in a failed requirement. -/
inductive End where
  | done | aborted (reason : Str) | failed
  deriving DecidableEq

def reasonOf (c : Codec) (p : Str) : End :=
  match c.deserialize p with
  | .ok (.abort _ reason _ _) => .aborted reason
  | _ => .failed

/-- The end of both tests: WELCOME, nothing to send, details available. -/
def finish (c : Codec) (a : Joiner.Auth) (js : Joiner.State) (p : Str) : End :=
  match c.deserialize p, Joiner.receive c a js p with
  | .ok (.welcome ..), (js', .ok none) =>
    match Joiner.sessionDetails js' with
    | .ok _ => .done
    | _ => .failed
  | _, _ => .failed

/-- `testAnonymousAuth` (joiner_acceptor_test.go:78-104) -/
def testAnonymousAuth (c : Codec) (static : Bool) (e : Acceptor.Env) : End :=
  let a := (newAnonymous authID (some [])).toAuth crypto
  match Joiner.sendHello c a (Joiner.init realm static) with
  | (js, .ok hello) =>
    match Acceptor.receive crypto c e (Acceptor.init static) hello with
    | (_, .ok (p, true)) => finish c a js p
    | _ => .failed
  | _ => .failed

/-- `testAuth` (joiner_acceptor_test.go:123-171) -/
def testAuth (c : Codec) (static : Bool) (client : ClientAuth) : End :=
  let a := client.toAuth crypto
  match Joiner.sendHello c a (Joiner.init realm static) with
  | (js, .ok hello) =>
    match Acceptor.receive crypto c env (Acceptor.init static) hello with
    | (as, .ok (p, false)) =>
      match c.deserialize p with
      | .ok (.challenge ..) =>
        match Joiner.receive c a js p with
        | (js, .ok (some authenticate)) =>
          match Acceptor.receive crypto c env as authenticate with
          | (_, .ok (p, true)) => finish c a js p
          | (_, .ok (p, false)) => reasonOf c p
          | _ => .failed
        | _ => .failed
      | _ => reasonOf c p
    | _ => .failed
  | _ => .failed

def json : Codec := Json.codec
def cbor : Codec := Cbor.codec id
def msgpack : Codec := MsgPack.codec id
def refused : End := .aborted (str "wamp.error.authentication_failed")

/-- `TestAnonymousAuth` (joiner_acceptor_test.go:106-121) -/
example : testAnonymousAuth json false env = .done := by decide +kernel
example : testAnonymousAuth cbor false env = .done := by decide +kernel
example : testAnonymousAuth msgpack false env = .done := by decide +kernel

/-- `TestTicketAuth` (joiner_acceptor_test.go:173-202) -/
example : testAuth json false (newTicket authID ticket (some [])) = .done := by decide +kernel
example : testAuth cbor false (newTicket authID ticket (some [])) = .done := by decide +kernel
example : testAuth msgpack false (newTicket authID ticket (some [])) = .done := by decide +kernel
example : testAuth json false (newTicket authID (str "abc") (some [])) = refused := by decide +kernel

/-- `TestCRAAuth` (joiner_acceptor_test.go:204-240) -/
example : testAuth json false (newCRA authID secret (some [])) = .done := by decide +kernel
example : testAuth cbor false (newCRA authID secret (some [])) = .done := by decide +kernel
example : testAuth msgpack false (newCRA authID secret (some [])) = .done := by decide +kernel
example : testAuth json false (newCRA authID (str "abc") (some [])) = refused := by decide +kernel
example : testAuth json false (newCRA (str "abc") secret (some [])) = refused := by decide +kernel

/-- `testAuth` with `NewCryptoSignAuthenticator(authID, key, nil)` -/
def testCryptoSign (c : Codec) (key : Str) : End :=
  match newCryptoSign crypto authID key none with
  | .ok a => testAuth c false a
  | _ => .failed

/-- `TestCryptosignAuth` (joiner_acceptor_test.go:242-279) -/
example : testCryptoSign json privateKey = .done := by decide +kernel
example : testCryptoSign cbor privateKey = .done := by decide +kernel
example : testCryptoSign msgpack privateKey = .done := by decide +kernel
example : testCryptoSign json (str "2e9bef98114241d2226996cf09faf87dad892643a7c5fde186783470bce21df3") = refused := by decide +kernel

/-- `TestUnsupportedAuthMethod` (joiner_acceptor_test.go:308-329) with the authenticator of lines 281-306 -/
def onlyAnonymous : Acceptor.Env := { env with methods := [mAnonymous] }
example : (match Joiner.sendHello json ((newTicket authID [] (some [])).toAuth crypto) (Joiner.init realm false) with
    | (_, .ok hello) =>
      match Acceptor.receive crypto json onlyAnonymous (Acceptor.init false) hello with
      | (_, .ok (p, false)) => reasonOf json p
      | _ => .failed
    | _ => .failed) = refused := by decide +kernel
example : testAnonymousAuth json false onlyAnonymous = .done := by decide +kernel

/-- `TestNilRoles` (joiner_acceptor_test.go:331-349); a nil authenticator is `NewAnonymousAuthenticator("", nil)` (joiner.go:60-62). -/
example : (match Joiner.sendHello json ((newAnonymous [] none).toAuth crypto) (Joiner.init realm false) with
    | (js, .ok _) =>
      match Joiner.recv ((newAnonymous [] none).toAuth crypto) js (newWelcome 1 (some [(str "authextra", .map [(str "foo", .str (str "bar"))]),
          (str "authid", .str (str "foo")), (str "authmethod", .str mAnonymous), (str "authrole", .str mAnonymous)])) with
      | (js, .ok none) => (match Joiner.sessionDetails js with | .ok d => d.roles | _ => none)
      | _ => none
    | _ => none) = some [] := rfl

end Wamp.Conformance.Login
