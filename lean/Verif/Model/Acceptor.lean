import Verif.Model.Auth
import Verif.Model.Validator
/-!
# `acceptor.go`, `joiner.go` and `SessionDetails` (types.go)
-/
namespace Wamp

/-- `SessionDetails` (types.go:8-19) without the creation time. -/
structure SessionDetails where
  id : Nat
  realm : Str
  authID : Str
  authRole : Str
  authMethod : Str
  static : Bool
  roles : GoMap
  authExtra : GoMap

/-- `NewSessionDetails` (types.go:21-40) -/
def newSessionDetails (id : Nat) (realm authID authRole authMethod : Str) (static : Bool) (roles authExtra : GoMap) :
    SessionDetails :=
  ⟨id, realm, authID, authRole, authMethod, static, orEmpty roles, orEmpty authExtra⟩

/-- `RouterRoles` (acceptor.go:21-33), keys sorted. -/
def routerRoles : Dict :=
  [(str "broker", .map [(str "features", .map [(str "publisher_exclusion", .bool true)])]),
   (str "dealer", .map [(str "features",
      .map [(str "call_canceling", .bool true), (str "progressive_call_invocations", .bool true)])])]

/-- `ClientRoles` (joiner.go:13-34), keys sorted. -/
def clientRoles : Dict :=
  [(str "callee", .map [(str "features",
      .map [(str "call_canceling", .bool true), (str "progressive_call_invocations", .bool true),
            (str "progressive_call_results", .bool true)])]),
   (str "caller", .map [(str "features", .map [(str "progressive_call_invocations", .bool true)])]),
   (str "publisher", .map [(str "features", .map [(str "publisher_exclusion", .bool true)])]),
   (str "subscriber", .map [(str "features", .map [])])]

/-- `"wamp.error.authentication_failed"` (acceptor.go:123 etc., uris.go:15) -/
def errAuthFailed : Str := str "wamp.error.authentication_failed"

namespace Acceptor

/-- acceptor.go:15-19 -/
inductive St where
  | none | challengeSent | welcomeSent
  deriving DecidableEq, Repr

/-- The fields of a HELLO that the acceptor keeps. -/
structure HelloInfo where
  realm : Str
  authID : Str
  authExtra : GoMap

/-- `Acceptor` (acceptor.go:49-61). `response = none` is the nil interface. -/
structure State where
  static : Bool
  st : St := .none
  authMethod : Str := []
  hello : Option HelloInfo := none
  request : Option AuthReq := none
  response : Option AuthResp := none
  challenge : Str := []
  details : Option SessionDetails := none

/-- Everything a call of `ReceiveMessage` gets from outside: the server authenticator (which may be stateful, so it may
answer differently in every call) and the random values drawn during the call. `none` for a challenge is a failing random
source. The text of a WAMP-CRA challenge (JSON with a nonce, auth/wampcra.go:117-139) is an arbitrary string here;
`Model/Challenge.lean` models how it is made. -/
structure Env where
  methods : List Str
  authn : AuthReq → AuthOut
  id : Nat
  craChallenge : Option Str
  csChallenge : Option Str

/-- Result of one call: the acceptor afterwards, what was returned, and the question put to the authenticator with its
answer. -/
structure Out where
  state : State
  res : Res Msg
  asked : Option (AuthReq × AuthOut) := none

/-- The ABORT for a refused login (acceptor.go:123, 135, 182, 212). -/
def abortMsg (text : Str) : Msg := newAbort (some []) errAuthFailed (some [.str text]) none
/-- The ABORT for a wrong signature (acceptor.go:229, 244). -/
def abortNoArgs : Msg := newAbort (some []) errAuthFailed none none

/-- The details of the WELCOME built by `sendWelcome` (acceptor.go:258-264); `authmethod` holds a value of the named type
`auth.Method`. -/
def welcomeDetails (realm authID authRole authMethod : Str) : Dict :=
  [(str "authid", .str authID), (str "authmethod", .named authMethod), (str "authrole", .str authRole),
   (str "realm", .str realm), (str "roles", .map routerRoles)]

/-- `sendWelcome` (acceptor.go:257-271). Calling a method of a nil `Response`, or reading a nil HELLO, panics. -/
def sendWelcome (s : State) (id : Nat) (response : Option AuthResp) (authExtra : GoMap)
    (asked : Option (AuthReq × AuthOut)) : Out :=
  match s.hello, response with
  | some h, some r =>
    { state := { s with
        details := some (newSessionDetails id h.realm r.authID r.authRole s.authMethod s.static (some routerRoles) authExtra)
        st := .welcomeSent }
      res := .ok (newWelcome id (some (welcomeDetails h.realm r.authID r.authRole s.authMethod)))
      asked }
  | _, _ => { state := s, res := .panic, asked }

/-- The extra of a WAMP-CRA CHALLENGE (acceptor.go:149-157), keys sorted. -/
def craExtra (ch : Str) (i : CRAInfo) : Dict :=
  if i.salt = [] then [(str "challenge", .str ch)]
  else [(str "challenge", .str ch), (str "iterations", .int .int i.iterations), (str "keylen", .int .int i.keyLen),
        (str "salt", .str i.salt)]

/-- The HELLO branch of `ReceiveMessage` (acceptor.go:103-200). -/
def recvHello (env : Env) (s : State) (realm authID : Str) (methods : Option (List Str)) (extra : GoMap) : Out :=
  if s.st ≠ .none then ⟨s, .err, none⟩
  else
    match selectAuthMethod env.methods (methods.getD []) with
    | none => ⟨s, .ok (abortMsg (unsupportedText (unsupportedMethods env.methods (methods.getD [])))), none⟩
    | some am =>
      let s := { s with authMethod := am, hello := some ⟨realm, authID, extra⟩ }
      if am = mAnonymous then
        let req := newRequest realm authID extra am
        match env.authn req with
        | .err t => ⟨s, .ok (abortMsg t), some (req, .err t)⟩
        | .nilResp => sendWelcome s env.id none none (some (req, .nilResp))
        | .ok r => sendWelcome s env.id (some r) none (some (req, .ok r))
      else if am = mTicket then
        ⟨{ s with st := .challengeSent }, .ok (newChallenge am (some [])), none⟩
      else if am = mCRA then
        let req := newRequest realm authID extra am
        match env.authn req with
        | .err t => ⟨s, .ok (abortMsg t), some (req, .err t)⟩
        | .nilResp => ⟨s, .err, some (req, .nilResp)⟩
        | .ok r =>
          match r.cra with
          | none => ⟨s, .err, some (req, .ok r)⟩
          | some info =>
            match env.craChallenge with
            | none => ⟨s, .err, some (req, .ok r)⟩
            | some ch =>
              ⟨{ s with challenge := ch, response := some r, st := .challengeSent },
                .ok (newChallenge am (some (craExtra ch info))), some (req, .ok r)⟩
      else if am = mCryptoSign then
        match extra.get (str "pubkey") with
        | none => ⟨s, .err, none⟩
        | some v =>
          match v.asStr? with
          | none => ⟨s, .err, none⟩
          | some pk =>
            if pk = [] then ⟨s, .err, none⟩
            else
              let req := newCryptoSignRequest realm authID extra pk
              match env.authn req with
              | .err t => ⟨s, .ok (abortMsg t), some (req, .err t)⟩
              | a =>
                let s := { s with request := some req, response := match a with | .ok r => some r | _ => none }
                match env.csChallenge with
                | none => ⟨s, .err, some (req, a)⟩
                | some ch =>
                  ⟨{ s with challenge := ch, st := .challengeSent },
                    .ok (newChallenge am (some [(str "challenge", .str ch)])), some (req, a)⟩
      else ⟨s, .err, none⟩

/-- The AUTHENTICATE branch of `ReceiveMessage` (acceptor.go:201-251). -/
def recvAuthenticate (cr : Crypto) (env : Env) (s : State) (signature : Str) (extra : GoMap) : Out :=
  if s.st ≠ .challengeSent then ⟨s, .err, none⟩
  else if s.authMethod = mTicket then
    match s.hello with
    | none => ⟨s, .panic, none⟩
    | some h =>
      let req := newTicketRequest h.realm h.authID h.authExtra signature
      match env.authn req with
      | .err t => ⟨s, .ok (abortMsg t), some (req, .err t)⟩
      | .nilResp => sendWelcome s env.id none extra (some (req, .nilResp))
      | .ok r => sendWelcome s env.id (some r) extra (some (req, .ok r))
  else if s.authMethod = mCRA then
    match s.response.bind (·.cra) with
    | none => ⟨s, .panic, none⟩
    | some info =>
      match craKey cr info with
      | .ok key =>
        if verifyCRA cr signature s.challenge key then sendWelcome s env.id s.response extra none
        else ⟨s, .ok abortNoArgs, none⟩
      | _ => ⟨s, .panic, none⟩
  else if s.authMethod = mCryptoSign then
    match s.request.bind (·.publicKey) with
    | none => ⟨s, .panic, none⟩
    | some pk =>
      match hexDecode pk with
      | none => ⟨s, .err, none⟩
      | some key =>
        if (verifyCryptoSign cr signature key).getD false then sendWelcome s env.id s.response extra none
        else ⟨s, .ok abortNoArgs, none⟩
  else ⟨s, .err, none⟩

/-- `ReceiveMessage` (acceptor.go:98-255) -/
def recv (cr : Crypto) (env : Env) (s : State) (m : Msg) : Out :=
  if s.st = .welcomeSent then ⟨s, .err, none⟩
  else
    match m with
    | .hello realm authID methods extra _ => recvHello env s realm authID methods extra
    | .authenticate signature extra => recvAuthenticate cr env s signature extra
    | _ => ⟨s, .err, none⟩

/-- `NewAcceptor` (acceptor.go:63-77); `static` is what the serializer's `Static()` returns. -/
def init (static : Bool) : State := { static }

/-- `(*defaultAuthenticator).Methods` and `Authenticate` (acceptor.go:37-47); the error text is omitted. -/
def defaultMethods : List Str := [mAnonymous]
/-- acceptor.go:41-47 -/
def defaultAuthn (r : AuthReq) : AuthOut :=
  if r.method ≠ mAnonymous then .err [] else .ok ⟨mAnonymous, mAnonymous, none⟩

/-- `Receive` (acceptor.go:79-96): payload to send and whether it is a WELCOME. -/
def receive (cr : Crypto) (c : Codec) (env : Env) (s : State) (data : Str) : State × Res (Str × Bool) :=
  match c.deserialize data with
  | .err => (s, .err)
  | .panic => (s, .panic)
  | .ok m =>
    let o := recv cr env s m
    (o.state, o.res.bind fun toSend => (c.serialize toSend).bind fun p => .ok (p, toSend.type == 2))

/-- `SessionDetails()` (acceptor.go:273-279) -/
def sessionDetails (s : State) : Res SessionDetails := Res.ofOption s.details

end Acceptor

namespace Joiner

/-- joiner.go:38-43 -/
inductive St where
  | none | helloSent | authenticateSent | joined
  deriving DecidableEq, Repr

/-- `Joiner` (joiner.go:45-52) without authenticator and serializer. -/
structure State where
  realm : Str
  static : Bool
  st : St := .none
  details : Option SessionDetails := none

/-- What a client authenticator provides (auth/authenticator.go:20-25). The built-in ones are `ClientAuth`; a custom one may
be stateful, so every step may use another. It is assumed not to return `(nil, nil)`. -/
structure Auth where
  method : Str
  authID : Str
  authExtra : GoMap
  authenticate : Str → GoMap → Res (Str × GoMap)

/-- A built-in authenticator. -/
def _root_.Wamp.ClientAuth.toAuth (cr : Crypto) (a : ClientAuth) : Auth :=
  ⟨a.method, a.authID, a.authExtra, fun _ extra => a.authenticate cr extra⟩

/-- The HELLO sent by `SendHello` (joiner.go:72-78). -/
def helloMsg (a : Auth) (s : State) : Msg := newHello s.realm a.authID a.authExtra (some clientRoles) (some [a.method])

/-- `SendHello` (joiner.go:71-87), with the outcome of serializing. -/
def sendHello (c : Codec) (a : Auth) (s : State) : State × Res Str :=
  match c.serialize (helloMsg a s) with
  | .ok b => ({ s with st := .helloSent }, .ok b)
  | .err => (s, .err)
  | .panic => (s, .panic)

/-- The WELCOME branch of `ReceiveMessage` (joiner.go:117-129). `authid` and `authrole` are read with an unchecked type
assertion, which panics on anything but a string. -/
def recvWelcome (s : State) (sessionID : Nat) (details : GoMap) : State × Res (Option Msg) :=
  if s.st ≠ .helloSent ∧ s.st ≠ .authenticateSent then (s, .err)
  else
    let roles := ((details.get (str "roles")).bind Val.asMap?).getD none
    let authMethod := details.text (str "authmethod")
    match (details.get (str "authid")).bind Val.asStr?, (details.get (str "authrole")).bind Val.asStr? with
    | some authID, some authRole =>
      ({ s with details := some (newSessionDetails sessionID s.realm authID authRole authMethod s.static roles none)
                st := .joined }, .ok none)
    | _, _ => (s, .panic)

/-- `ReceiveMessage` (joiner.go:116-166); `ok none` is `(nil, nil)`. -/
def recv (a : Auth) (s : State) (m : Msg) : State × Res (Option Msg) :=
  match m with
  | .welcome sessionID details => recvWelcome s sessionID details
  | .challenge method extra =>
    if s.st ≠ .helloSent then (s, .err)
    else
      match a.authenticate method extra with
      | .ok (sig, ex) => ({ s with st := .authenticateSent }, .ok (some (newAuthenticate sig ex)))
      | .err => (s, .err)
      | .panic => (s, .panic)
  | .abort .. => (s, .err)
  | _ => (s, .err)

/-- `Receive` (joiner.go:89-114); `ok none` is `(nil, nil)`. -/
def receive (c : Codec) (a : Auth) (s : State) (data : Str) : State × Res (Option Str) :=
  match c.deserialize data with
  | .err => (s, .err)
  | .panic => (s, .panic)
  | .ok m =>
    let (s', r) := recv a s m
    (s', r.bind fun
      | none => .ok none
      | some toSend => (c.serialize toSend).bind fun p => .ok (some p))

/-- `NewJoiner` (joiner.go:54-69) -/
def init (realm : Str) (static : Bool) : State := { realm, static }

/-- `SessionDetails()` (joiner.go:168-174) -/
def sessionDetails (s : State) : Res SessionDetails := Res.ofOption s.details

end Joiner
end Wamp
