import Verif.Model.Acceptor
import Verif.Model.Wire
import Verif.Spec.Wire
/-!
# A client and a router exchanging bytes
-/
namespace Wamp.Handshake

/-- Deliver `data` to the acceptor, its answer to the joiner, the joiner's answer to the acceptor, and so on until the joiner
has nothing more to send. `none`: somebody returned an error or crashed, or the acceptor was called more often than there
are environments (one per call). The flag is the "welcomed" value of the last `Acceptor.Receive`. -/
def exchange (cr : Crypto) (c : Codec) (a : Joiner.Auth) :
    List Acceptor.Env → Acceptor.State → Joiner.State → Str → Option (Acceptor.State × Joiner.State × Bool)
  | [], _, _, _ => none
  | env :: envs, as, js, data =>
    match Acceptor.receive cr c env as data with
    | (as', .ok (p, w)) =>
      match Joiner.receive c a js p with
      | (js', .ok none) => some (as', js', w)
      | (js', .ok (some p')) => exchange cr c a envs as' js' p'
      | _ => none
    | _ => none

/-- The whole login: the joiner says hello, then bytes are exchanged. -/
def login (cr : Crypto) (c : Codec) (a : Joiner.Auth) (envs : List Acceptor.Env) (realm : Str) (static : Bool) :
    Option (Acceptor.State × Joiner.State × Bool) :=
  match Joiner.sendHello c a (Joiner.init realm static) with
  | (js, .ok data) => exchange cr c a envs (Acceptor.init static) js data
  | _ => none

/-- The authextra as the router sees it. -/
def seen (norm : Val → Val) (e : GoMap) : GoMap := some (Spec.onDict norm (e.getD []))

/-- The server's authenticator approves this client with response `r`, and the server's random source works; `env1` and `env2`
are the first and second calls of the acceptor. -/
def Approves (cr : Crypto) (norm : Val → Val) (realm : Str) (env1 env2 : Acceptor.Env) (r : AuthResp) : ClientAuth → Prop
  | .anonymous authID e => env1.authn ⟨str "anonymous", realm, authID, seen norm e, none, none⟩ = .ok r
  | .ticket authID e t => env2.authn ⟨str "ticket", realm, authID, seen norm e, none, some t⟩ = .ok r
  | .cra authID e secret =>
    env1.authn ⟨str "wampcra", realm, authID, seen norm e, none, none⟩ = .ok r ∧
    env1.craChallenge ≠ none ∧
    ∃ salt iterations keyLen, r.cra = some ⟨secret, salt, iterations, keyLen⟩ ∧ -(2 ^ 53) ≤ iterations ∧
      iterations ≤ 2 ^ 53 ∧ 0 ≤ keyLen ∧ keyLen ≤ 2 ^ 53
  | .cryptosign authID e seed =>
    seed.length = 32 ∧ e.get (str "pubkey") = some (.str (hexEncode (cr.pubOfSeed seed))) ∧
    env1.authn ⟨str "cryptosign", realm, authID, seen norm e, some (hexEncode (cr.pubOfSeed seed)), none⟩ = .ok r ∧
    ∃ random : Str, random.length = 32 ∧ env1.csChallenge = some (hexEncode random)

/-- The signature the client sends: the ticket, or the signature of the router's challenge. -/
def Signature (cr : Crypto) (env1 : Acceptor.Env) (r : AuthResp) : ClientAuth → Str → Prop
  | .anonymous .., _ => False
  | .ticket _ _ t, sig => sig = t
  | .cra .., sig => ∃ ch info key, env1.craChallenge = some ch ∧ r.cra = some info ∧ craKey cr info = .ok key ∧
      sig = signCRA cr ch key
  | .cryptosign _ _ seed, sig => ∃ ch, env1.csChallenge = some ch ∧ signCryptoSign cr ch seed = some sig

/-- The extra of the CHALLENGE. -/
def ChallengeExtra (env1 : Acceptor.Env) (r : AuthResp) : ClientAuth → Dict → Prop
  | .anonymous .., _ => False
  | .ticket .., x => x = []
  | .cra .., x => ∃ ch info, env1.craChallenge = some ch ∧ r.cra = some info ∧ x = Acceptor.craExtra ch info
  | .cryptosign .., x => ∃ ch, env1.csChallenge = some ch ∧ x = [(str "challenge", .str ch)]

/-- The messages that cross the wire. -/
def Crosses (cr : Crypto) (realm : Str) (env1 : Acceptor.Env) (id : Nat) (r : AuthResp) (ca : ClientAuth) (m : Msg) : Prop :=
  m = newHello realm ca.authID ca.authExtra (some clientRoles) (some [ca.method]) ∨
  (∃ x, ChallengeExtra env1 r ca x ∧ m = newChallenge ca.method (some x)) ∨
  (∃ sig, Signature cr env1 r ca sig ∧ m = newAuthenticate sig ca.authExtra) ∨
  m = newWelcome id (some (Acceptor.welcomeDetails realm r.authID r.authRole ca.method))

end Wamp.Handshake
