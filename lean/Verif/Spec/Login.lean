import Verif.Spec.Handshake
import Verif.Spec.Challenge
import Verif.Model.Cbor
/-!
# Logins with ordinary content
-/
namespace Wamp.Handshake
open Wamp

/-- UTF-8 text below 256 MB. -/
def Text (s : Str) : Prop := Cbor.validUtf8 s = true ∧ s.length < 2 ^ 28

/-- Names, tickets and salts are ordinary text, the server's challenges are made by the library's own functions from what `rand.Read`, the
clock and `GenerateID` give, a MAC has 32 bytes. -/
structure Ordinary (cr : Crypto) (realm : Str) (env1 : Acceptor.Env) (r : AuthResp) (ca : ClientAuth) (d : Draw) : Prop where
  realm : Text realm
  authID : Text ca.authID
  ticket : ∀ i e t, ca = .ticket i e t → Text t
  approvedID : Text r.authID
  approvedRole : Text r.authRole
  salt : ∀ info, r.cra = some info → Text info.salt
  challenge : env1.craChallenge = challengeFor d r
  nonce : ∀ b, d.nonce = some b → b.length = 16
  session : d.session.toNat ≤ 2 ^ 53
  clock : Spec.Clock.sane d.now
  mac : ∀ k m, (cr.hmac k m).length = 32

end Wamp.Handshake
