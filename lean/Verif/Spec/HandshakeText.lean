import Verif.Spec.Acceptor
import Verif.Spec.Joiner
import Verif.Spec.RouterText
/-!
# What the errors during a login say, and when that is so

`AcceptorSays cause h w t`: the text `t` about the call `w` on an acceptor, made after the calls `h`, states a fact; `cause` is the text of the
random source's error.  `JoinerSays` likewise; there `cause` is the text of the client authenticator's error.
-/
namespace Wamp.Spec.HandshakeText
open Wamp.Spec.RouterText

section
open Wamp.Acceptor

/-- The methods an acceptor can handle. -/
def known : List Str := [str "anonymous", str "ticket", str "wampcra", str "cryptosign"]

/-- The errors of an acceptor. -/
inductive AcceptorSays (cause : Str) (h : List Call) (w : Call) : Str → Prop where
  /-- A WELCOME was sent. -/
  | established (c : Call) : c ∈ h → c.answered .welcome →
      AcceptorSays cause h w (str "session was established, not expecting any new messages")
  /-- A CHALLENGE was sent (and no WELCOME): state 1. -/
  | helloAgain (c : Call) : w.msg.kind = .hello → c ∈ h → c.answered .challenge → (∀ c ∈ h, ¬c.answered .welcome) →
      AcceptorSays cause h w (str "state must be 0 when processing HELLO but was 1")
  /-- Neither CHALLENGE nor WELCOME was sent: state 0. -/
  | authenticate : w.msg.kind = .authenticate → OnlyAborts h → AcceptorSays cause h w (str "received AUTHENTICATE while state was 0")
  /-- The first proposed method that is allowed is none that the acceptor knows. -/
  | method (realm authID : Str) (ms : List Str) (ex : GoMap) (before after : List Str) (m : Str) : OnlyAborts h →
      IsHello w.msg realm authID (some ms) ex → ms = before ++ m :: after → m ∈ w.env.methods → (∀ x ∈ before, x ∉ w.env.methods) → m ∉ known →
      AcceptorSays cause h w (str "received HELLO for unexpected authmethod " ++ m)
  /-- The authenticator approved, but not with a WAMP-CRA response. -/
  | response (q : AuthReq) (a : AuthOut) : w.msg.kind = .hello → w.asked = some (q, a) → q.method = str "wampcra" →
      (a = .nilResp ∨ ∃ r, a = .ok r ∧ r.cra = none) →
      AcceptorSays cause h w (str "internal response for WAMPCRA auth was of invalid type")
  /-- The authenticator did not refuse, but there were no random numbers. -/
  | random (q : AuthReq) (a : AuthOut) : w.msg.kind = .hello → w.asked = some (q, a) → (∀ t, a ≠ .err t) →
      (q.method = str "wampcra" ∧ w.env.craChallenge = none ∨ q.method = str "cryptosign" ∧ w.env.csChallenge = none) →
      AcceptorSays cause h w cause
  | noKey (realm authID : Str) (ms : List Str) (ex : GoMap) : IsHello w.msg realm authID (some ms) ex → str "cryptosign" ∈ ms →
      str "cryptosign" ∈ w.env.methods → ex.get (str "pubkey") = none → AcceptorSays cause h w (str "pubkey missing in authextra")
  | badKey (realm authID : Str) (ms : List Str) (ex : GoMap) (v : Val) : IsHello w.msg realm authID (some ms) ex → str "cryptosign" ∈ ms →
      str "cryptosign" ∈ w.env.methods → ex.get (str "pubkey") = some v → (∀ t, v ≠ .str t) →
      AcceptorSays cause h w (str "pubkey must be a string in authextra, was string")
  | emptyKey (realm authID : Str) (ms : List Str) (ex : GoMap) : IsHello w.msg realm authID (some ms) ex → str "cryptosign" ∈ ms →
      str "cryptosign" ∈ w.env.methods → ex.get (str "pubkey") = some (.str []) → AcceptorSays cause h w (str "pubkey empty in authextra")
  /-- The key in the HELLO that was answered by the CHALLENGE is not hexadecimal. -/
  | key (c : Call) (realm authID : Str) (ms : Option (List Str)) (ex : GoMap) (pk : Str) : w.msg.kind = .authenticate → c ∈ h →
      c.answered .challenge → IsHello c.msg realm authID ms ex → ex.get (str "pubkey") = some (.str pk) → hexDecode pk = none →
      AcceptorSays cause h w (str "failed to decode public key")
  | other : w.msg.kind ≠ .hello → w.msg.kind ≠ .authenticate → (∀ c ∈ h, ¬c.answered .welcome) →
      AcceptorSays cause h w (str "received unexpected message *messages." ++ str (goName w.msg.kind))

end

section
open Wamp.Joiner

/-- The errors of a joiner, apart from the text for ABORT (C147). -/
inductive JoinerSays (a : Auth) (cause : Str) (h : List Event) : Msg → Str → Prop where
  | welcome (id : Nat) (d : GoMap) : ¬Joining h → JoinerSays a cause h (.welcome id d) (str "received WELCOME when it was not expected")
  | challenge (m : Str) (x : GoMap) : ¬Fresh h → JoinerSays a cause h (.challenge m x) (str "received CHALLENGE when it was not expected")
  | authenticator (m : Str) (x : GoMap) : Fresh h → a.authenticate m x = .err → JoinerSays a cause h (.challenge m x) cause
  | other (m : Msg) : m.kind ∉ [.welcome, .challenge, .abort] → JoinerSays a cause h m (str "received unknown message")

end

end Wamp.Spec.HandshakeText
