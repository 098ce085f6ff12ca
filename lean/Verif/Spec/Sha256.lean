import Verif.Model.Sha256
import Verif.Model.Acceptor
/-!
# Which secrets HMAC-SHA256 tells apart, and what it hashes (RFC 2104)
-/
namespace Wamp.Sha256

/-- The bytes without the zeros at their end. -/
def stripZeros : Str → Str
  | [] => []
  | c :: r => if c = 0 ∧ stripZeros r = [] then [] else c :: stripZeros r

/-- What matters of a secret: of one longer than 64 bytes only its hash, and never zeros at the end. -/
def effective (secret : Str) : Str := stripZeros (if secret.length ≤ 64 then secret else sha256 secret)

/-- 64 bytes: the secret filled up with zeros, every byte combined with `x`. -/
def masked (x : UInt8) (secret : Str) : Str := (List.range 64).map fun i => (effective secret).getD i 0 ^^^ x

/-- What is hashed first for the signature of a challenge. -/
def inner (secret challenge : Str) : Str := masked 0x36 secret ++ challenge

/-- What is hashed then. -/
def outer (secret challenge : Str) : Str := masked 0x5c secret ++ sha256 (inner secret challenge)

/-- The two texts differ and have the same hash. -/
def Collide (m m' : Str) : Prop := m ≠ m' ∧ sha256 m = sha256 m'

/-- A client logs in: its HELLO goes to a new acceptor, the answer to the client, and the client's answer to the acceptor.  The result is what the
acceptor returns in the end, if all messages were handled without an error.  `env` and `env'` are what the two calls get from outside. -/
def login (cr : Crypto) (env env' : Acceptor.Env) (static : Bool) (realm : Str) (client : ClientAuth) : Option Msg :=
  let hello := Joiner.helloMsg (client.toAuth cr) { realm, static }
  match Acceptor.recv cr env (Acceptor.init static) hello with
  | ⟨acceptor, .ok m, _⟩ =>
    match (Joiner.recv (client.toAuth cr) { realm, static, st := .helloSent } m).2 with
    | .ok (some m') =>
      match (Acceptor.recv cr env' acceptor m').res with
      | .ok r => some r
      | _ => none
    | _ => none
  | _ => none

/-- The message is a WELCOME. -/
def isWelcome : Option Msg → Prop
  | some (.welcome ..) => True
  | _ => False

end Wamp.Sha256
