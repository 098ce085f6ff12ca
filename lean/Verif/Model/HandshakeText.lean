import Verif.Model.AbortText
import Verif.Model.RouterText
import Verif.Model.ErrorText
/-!
# The texts of the errors that acceptors, joiners and the client authenticators return

Each function gives the text of the error, `none` if there is none (or a panic).
-/
namespace Wamp.HandshakeText
open Wamp.RouterText

/-- The number of a state (acceptor.go:13-19), as `%d` shows it. -/
def stateNumber : Acceptor.St → Nat
  | .none => 0
  | .challengeSent => 1
  | .welcomeSent => 2

open Wamp.Acceptor in
/-- The HELLO branch (acceptor.go:103-200); `cause` is the text of the error of `GenerateWAMPCRAChallenge` or `GenerateCryptoSignChallenge`. -/
def helloError (env : Env) (cause : Str) (s : Acceptor.State) (realm authID : Str) (methods : Option (List Str)) (extra : GoMap) : Option Str :=
  if s.st ≠ .none then                                                                       -- :104-106
    some (str "state must be " ++ dec (stateNumber .none) ++ str " when processing HELLO but was " ++ dec (stateNumber s.st))
  else
    match selectAuthMethod env.methods (methods.getD []) with
    | none => none
    | some am =>
      if am = mAnonymous then none
      else if am = mTicket then none
      else if am = mCRA then
        match env.authn (newRequest realm authID extra am) with
        | .err _ => none
        | .nilResp => some (str "internal response for WAMPCRA auth was of invalid type")    -- :139-142
        | .ok r =>
          match r.cra with
          | none => some (str "internal response for WAMPCRA auth was of invalid type")      -- :139-142
          | some _ => if env.craChallenge.isSome then none else some cause                   -- :144-147
      else if am = mCryptoSign then
        match extra.get (str "pubkey") with
        | none => some (str "pubkey missing in authextra")                                   -- :165-168
        | some v =>
          match v.asStr? with
          | none => some (str "pubkey must be a string in authextra, was " ++ str "string")  -- :170-173; `publicKey` is the empty string here
          | some pk =>
            if pk = [] then some (str "pubkey empty in authextra")                           -- :175-177
            else
              match env.authn (newCryptoSignRequest realm authID extra pk) with
              | .err _ => none
              | _ => if env.csChallenge.isSome then none else some cause                     -- :189-192
      else some (str "received HELLO for unexpected authmethod " ++ am)                      -- :199

open Wamp.Acceptor in
/-- The AUTHENTICATE branch (acceptor.go:201-251). -/
def authenticateError (s : Acceptor.State) : Option Str :=
  if s.st ≠ .challengeSent then some (str "received AUTHENTICATE while state was " ++ dec (stateNumber s.st))   -- :202-204
  else if s.authMethod = mTicket then none
  else if s.authMethod = mCRA then none
  else if s.authMethod = mCryptoSign then
    match s.request.bind (·.publicKey) with
    | none => none
    | some pk => if (hexDecode pk).isSome then none else some (str "failed to decode public key")               -- :237-240
  else some (str "received AUTHENTICATE for unexpected authmethod " ++ s.authMethod)                            -- :250

/-- The error of the acceptor's `ReceiveMessage` (acceptor.go:98-255). -/
def acceptorError (env : Acceptor.Env) (cause : Str) (s : Acceptor.State) (m : Msg) : Option Str :=
  if s.st = .welcomeSent then some (str "session was established, not expecting any new messages")              -- :99-101
  else
    match m with
    | .hello realm authID methods extra _ => helloError env cause s realm authID methods extra
    | .authenticate .. => authenticateError s
    | _ => some (str "received unexpected message " ++ typeName m)                                              -- :253

open Wamp.Joiner in
/-- The error of the joiner's `ReceiveMessage` (joiner.go:116-166); `cause` is the text of the authenticator's error, `shown` and `order` as in
`abortText`. -/
def joinerError (shown : Val → Str) (order : List Str) (a : Joiner.Auth) (cause : Str) (s : Joiner.State) (m : Msg) : Option Str :=
  match m with
  | .welcome .. =>                                                                                              -- :118-120
    if s.st ≠ .helloSent ∧ s.st ≠ .authenticateSent then some (str "received WELCOME when it was not expected") else none
  | .challenge method extra =>
    if s.st ≠ .helloSent then some (str "received CHALLENGE when it was not expected")                          -- :131-133
    else
      match a.authenticate method extra with
      | .err => some cause                                                                                      -- :136-139
      | _ => none
  | .abort _ reason args kwargs => some (abortText shown order reason args kwargs)                              -- :143-162
  | _ => some (str "received unknown message")                                                                  -- :164

/-- The error of the acceptor's `Receive` (acceptor.go:79-96), from what `Deserialize` returns; `encoder` is the text of the error of `Serialize`. -/
def acceptorReceiveError (cr : Crypto) (c : Codec) (env : Acceptor.Env) (cause encoder : Str) (s : Acceptor.State) : ErrorText.TRes Msg → Option Str
  | .err t => some t                                                                                            -- :81-83
  | .panic => none
  | .ok m =>
    match acceptorError env cause s m with
    | some t => some t                                                                                          -- :86-88
    | none =>
      match (Acceptor.recv cr env s m).res with
      | .ok toSend => if (c.enc toSend.marshal).isSome then none else some encoder                              -- :91-93
      | _ => none

/-- The error of the joiner's `Receive` (joiner.go:89-114), likewise. -/
def joinerReceiveError (c : Codec) (shown : Val → Str) (order : List Str) (a : Joiner.Auth) (cause encoder : Str) (s : Joiner.State) :
    ErrorText.TRes Msg → Option Str
  | .err t => some (str "joiner: failed to deserialize: " ++ t)                                                 -- :91-93
  | .panic => none
  | .ok m =>
    match joinerError shown order a cause s m with
    | some t => some t                                                                                          -- :96-98
    | none =>
      match (Joiner.recv a s m).2 with
      | .ok (some toSend) => if (c.enc toSend.marshal).isSome then none else some encoder                       -- :109-111
      | _ => none

/-- The error of `SendHello` (joiner.go:71-87). -/
def sendHelloError (c : Codec) (a : Joiner.Auth) (encoder : Str) (s : Joiner.State) : Option Str :=
  if (c.enc (Joiner.helloMsg a s).marshal).isSome then none else some (str "failed to serialize hello: " ++ encoder)

/-- The error of `SessionDetails()` of acceptor and joiner (acceptor.go:273-279, joiner.go:168-174). -/
def detailsError (d : Option SessionDetails) : Option Str :=
  match d with
  | none => some (str "session is not setup yet")
  | some _ => none

/-- The error of `Authenticate` of a built-in client authenticator (auth/anonymous.go:39-41, ticket.go:36-38, wampcra.go:46-68,
cryptosign.go:67-75). -/
def clientError : ClientAuth → GoMap → Option Str
  | .anonymous .., _ => some (str "func Authenticate() must not be called for anonymous authentication")
  | .ticket .., _ => none
  | .cra .., _ => none
  | .cryptosign .., extra => if (hexDecode (extra.text (str "challenge"))).isSome then none else some (str "failed to sign challenge")

/-- The error of `NewCryptoSignAuthenticator` (auth/cryptosign.go:24-53). -/
def newCryptoSignError (cr : Crypto) (privateKeyHex : Str) (authExtra : GoMap) : Option Str :=
  match hexDecode privateKeyHex with
  | none => some (str "invalid private key")                                                                    -- :27-30
  | some raw =>
    if raw.length ≠ 32 then none
    else
      match (dget (authExtra.getD []) (str "pubkey")).getD .nil with
      | .str val =>                                                                                             -- :42-46
        if val ≠ hexEncode (cr.pubOfSeed raw) then some (str "provided pubkey does not correspond to the private key") else none
      | _ => none

end Wamp.HandshakeText
