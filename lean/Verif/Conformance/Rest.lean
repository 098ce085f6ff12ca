import Verif.Model.Session
import Verif.Model.IdGen
import Verif.Model.Float
import Verif.Model.Challenge
import Verif.Model.Cbor
import Verif.Model.MsgPack
import Verif.Conformance.Login
/-!
# The tests of `/repo` replayed on the model: client sessions, serializers, validators, authenticators and helpers
-/
namespace Wamp.Conformance.Rest
open Login (json cbor msgpack crypto)

/-! ### session_test.go -/

/-- A client's `Session` sends or receives a message. -/
inductive Step where
  | send (m : Msg)
  | recv (m : Msg)

/-- Which calls succeed. -/
def run (c : Codec) : Session.State → List Step → List Bool
  | _, [] => []
  | s, .send m :: rest =>
    let r := (Session.send (c.serialize m) m).run s
    (match r.2 with | .ok _ => true | _ => false) :: run c r.1 rest
  | s, .recv m :: rest =>
    let r := (Session.recv m).run s
    (match r.2 with | .ok _ => true | _ => false) :: run c r.1 rest

/-- The callee's part of `registerCallAndUnregister` (session_test.go:13-64) -/
def callee : List Step :=
  [.send (newRegister 1 none (str "foo.bar")), .recv (newRegistered 1 1), .recv (newInvocation 2 1 none none none),
   .send (newUnregister 3 1), .recv (newUnregistered 3)]
/-- The caller's part -/
def caller : List Step := [.send (newCall 2 none (str "foo.bar") none none), .recv (newResult 2 none none none)]

/-- `TestSessionCall` (session_test.go:66-82) -/
example : run json Session.init callee = List.replicate 5 true ∧ run json Session.init caller = [true, true] := by decide +kernel
example : run cbor Session.init callee = List.replicate 5 true ∧ run cbor Session.init caller = [true, true] := by decide +kernel
example : run msgpack Session.init callee = List.replicate 5 true ∧ run msgpack Session.init caller = [true, true] := by decide +kernel

/-- The subscriber's part of `subscribePublishAndUnsubscribe` (session_test.go:84-124) -/
def subscriber : List Step :=
  [.send (newSubscribe 1 none (str "foo.bar")), .recv (newSubscribed 1 1), .recv (newEvent 1 2 none none none),
   .send (newUnsubscribe 3 1), .recv (newUnsubscribed 3)]
/-- The publisher's part -/
def publisher : List Step := [.send (newPublish 2 none (str "foo.bar") none none)]

/-- `TestSessionPublish` (session_test.go:126-142) -/
example : run json Session.init subscriber = List.replicate 5 true ∧ run json Session.init publisher = [true] := by decide +kernel
example : run cbor Session.init subscriber = List.replicate 5 true ∧ run cbor Session.init publisher = [true] := by decide +kernel
example : run msgpack Session.init subscriber = List.replicate 5 true ∧ run msgpack Session.init publisher = [true] := by decide +kernel

/-! ### serializers/serializer_test.go -/

/-- `serializeDeserialize` (serializer_test.go:12-34): reason, arguments, keyword arguments and details come back the same; the last
three are empty but not nil. -/
def thereAndBack (c : Codec) : Bool :=
  match (c.serialize (newAbort (some []) (str "hello") (some []) (some []))).bind c.deserialize with
  | .ok (.abort (some []) reason (some []) (some [])) => decide (reason = str "hello")
  | _ => false

/-- `TestSerializers` (serializer_test.go:36-51) -/
example : thereAndBack cbor = true := by decide +kernel
example : thereAndBack msgpack = true := by decide +kernel
example : thereAndBack json = true := by decide +kernel

/-! ### messages/validator_test.go -/

def io : Val := .str (str "io.xconn.test")
def one : Val := .int .int 1

/-- `TestValidateArgs` (validator_test.go:11-42) -/
example : Vd.args.run [one, io, .map []] 3 {} = .ok {} := rfl
example : Vd.args.run [one, io, .map [], .arr [.str (str "abc"), .int .int 123, .bool true]] 3 {} =
    .ok { args := some [.str (str "abc"), .int .int 123, .bool true] } := rfl
example : Vd.args.run [one, io, .map [], .str (str "invalidType")] 3 {} = .err := rfl
/-- `TestValidateSessionID` … `TestValidateSubscriptionID` (validator_test.go:44-172) -/
example : Vd.sessionID.run [one, io, .map []] 0 {} = .ok { sessionID := 1 } := rfl
example : Vd.sessionID.run [.str (str "invalidType"), io, .map []] 0 {} = .err := rfl
example : Vd.messageType.run [one, one, .map []] 1 {} = .ok { messageType := 1 } := rfl
example : Vd.messageType.run [one, .str (str "invalid"), .map []] 1 {} = .err := rfl
example : Vd.requestID.run [one, one, .map []] 0 {} = .ok { requestID := 1 } := rfl
example : Vd.requestID.run [.str (str "invalid"), one, .map []] 0 {} = .err := rfl
example : Vd.registrationID.run [one, one, .map []] 1 {} = .ok { registrationID := 1 } := rfl
example : Vd.registrationID.run [one, .str (str "invalid"), .map []] 1 {} = .err := rfl
example : Vd.publicationID.run [one, one, .map []] 1 {} = .ok { publicationID := 1 } := rfl
example : Vd.publicationID.run [one, .str (str "invalid"), .map []] 1 {} = .err := rfl
example : Vd.subscriptionID.run [one, one, .map []] 1 {} = .ok { subscriptionID := 1 } := rfl
example : Vd.subscriptionID.run [one, .str (str "invalid"), .map []] 1 {} = .err := rfl
/-- `TestValidateSignature` … `TestValidateReason` (validator_test.go:174-282) -/
example : Vd.signature.run [one, .str (str "abcd"), .map []] 1 {} = .ok { signature := str "abcd" } := rfl
example : Vd.signature.run [one, one, .map []] 1 {} = .err := rfl
example : Vd.uri.run [one, io, .map []] 1 {} = .ok { uri := str "io.xconn.test" } := rfl
example : Vd.uri.run [one, one, .map []] 1 {} = .err := rfl
example : Vd.realm.run [one, io, .map []] 1 {} = .ok { realm := str "io.xconn.test" } := rfl
example : Vd.realm.run [one, one, .map []] 1 {} = .err := rfl
example : Vd.authMethod.run [one, .str (str "anonymous"), .map []] 1 {} = .ok { authMethod := str "anonymous" } := rfl
example : Vd.authMethod.run [one, one, .map []] 1 {} = .err := rfl
example : Vd.reason.run [one, .str (str "wamp.error.unknown"), .map []] 1 {} = .ok { reason := str "wamp.error.unknown" } := rfl
example : Vd.reason.run [one, one, .map []] 1 {} = .err := rfl
/-- `TestValidateExtra` … `TestValidateDetails` (validator_test.go:284-348) -/
example : Vd.extra.run [one, io, .map [(str "pubKey", .str (str "jhysggvvjygvb"))]] 2 {} =
    .ok { extra := some [(str "pubKey", .str (str "jhysggvvjygvb"))] } := rfl
example : Vd.extra.run [one, io, one] 2 {} = .err := rfl
example : Vd.options.run [one, io, .map [(str "invoke", .str (str "roundrobin"))]] 2 {} =
    .ok { options := some [(str "invoke", .str (str "roundrobin"))] } := rfl
example : Vd.options.run [one, io, one] 2 {} = .err := rfl
example : Vd.details.run [one, io, .map [(str "subscription", one)]] 2 {} = .ok { details := some [(str "subscription", one)] } := rfl
example : Vd.details.run [one, io, one] 2 {} = .err := rfl
/-- `TestValidateKwArgs` (validator_test.go:350-380); two of its cases call `ValidateDetails`. -/
example : Vd.kwargs.run [one, io, .map []] 4 {} = .ok {} := rfl
example : Vd.details.run [one, io, .map [], .strs [], .map [(str "abc", .int .int 123)]] 4 {} =
    .ok { details := some [(str "abc", .int .int 123)] } := rfl
example : Vd.details.run [one, io, .map [], .strs [], one] 4 {} = .err := rfl

/-- The specification of `TestValidateMessage` (validator_test.go:383-393) -/
def spec : VSpec := ⟨3, 5, [(0, .sessionID), (1, .uri), (2, .options), (3, .args), (4, .kwargs)]⟩
/-- `TestValidateMessage` (validator_test.go:382-431) -/
example : validateMessage [one, io, .map [], .arr [.str (str "abc"), one]] spec =
    .ok { sessionID := 1, uri := str "io.xconn.test", options := some [], args := some [.str (str "abc"), one] } := rfl
example : validateMessage [one] spec = .err := rfl
example : validateMessage [one, io, .map [], .str (str "invalidType")] spec = .err := rfl
example : validateMessage [one, io, .map [], .str (str "invalidType"), .str (str "extra")] spec = .err := rfl

/-! ### idgen_test.go and util/util_test.go -/

/-- `TestSessionScopeIDGenerator` (idgen_test.go:21-28) -/
example : (List.range 9).map (fun n => (n.repeat (fun id => (nextID id).1) 0)) = [0, 1, 2, 3, 4, 5, 6, 7, 8] := by decide +kernel
example : (List.range 9).map (fun n => (nextID n).2) = [1, 2, 3, 4, 5, 6, 7, 8, 9] := by decide +kernel

/-- The `float64` nearest to a decimal text. -/
def float (s : String) : GoFloat := (Json.number (str s)).getD .nan

/-- `TestAsInt64` (util_test.go:11-41); `float32(9.01)` is 4723835 / 2^19. -/
example : ([.uint .u64 123, .int .i64 456, .uint .u8 7, .int .int 890, .int .i32 345, .uint .uint 678, .uint .u16 901, .uint .u32 234,
      .f64 (float "56.78"), .f32 (.fin false 4723835 (-19))] : List Val).map asUInt64 =
    [some 123, some 456, some 7, some 890, some 345, some 678, some 901, some 234, some 56, some 9] := by decide +kernel
example : asUInt64 (.str (str "invalid")) = none := rfl

/-- `TestAsFloat64` (util_test.go:43-73); `float32(67.89)` is 4449239 / 2^16. -/
example : ([.f64 (float "123.45"), .uint .u64 123, .int .i64 456, .int .int 789, .int .i32 345, .uint .uint 678, .uint .u32 234,
      .uint .u8 7, .uint .u16 90] : List Val).map asFloat64 =
    ["123.45", "123.0", "456.0", "789.0", "345.0", "678.0", "234.0", "7.0", "90.0"].map (fun s => some (float s)) := by decide +kernel
/-- … the model keeps the mantissa of a `float32`; the number is the same. -/
example : asFloat64 (.f32 (.fin false 4449239 (-16))) = some (.fin false 4449239 (-16)) ∧
    float "67.88999938964844" = .fin false (4449239 * 2 ^ 30) (-16 - 30) := by decide +kernel
example : asFloat64 (.str (str "invalid")) = none := rfl

/-- `TestAsBool`, `TestToBool`, `TestAsString`, `TestToString` (util_test.go:75-122) -/
example : (Val.bool true).asBool? = some true ∧ (Val.bool false).asBool? = some false ∧ (Val.int .int 123).asBool? = none := by decide
example : (Val.str (str "hello")).asStr? = some (str "hello") ∧ (Val.int .int 123).asStr? = none := by decide
/-- `TestAnysToStrings` (util_test.go:124-140) -/
example : anysToStrings [.str (str "foo"), .str (str "bar"), .str (str "helloo")] = some [str "foo", str "bar", str "helloo"] := by decide
example : anysToStrings [.str (str "foo"), .int .int 123, .str (str "bar")] = none := by decide

/-! ### auth/*_test.go -/

/-- `TestSelectAuthMethod` (helpers_test.go:11-37) -/
example : selectAuthMethod [mTicket, mAnonymous] [mTicket, str "challenge", mAnonymous] = some mTicket := by decide
example : selectAuthMethod [mTicket, mAnonymous] [str "challenge"] = none := by decide
example : unsupportedText (unsupportedMethods [mTicket, mAnonymous] [str "challenge"]) =
    str "server does not have [challenge] auth enabled" := by decide +kernel
example : selectAuthMethod [mTicket, mAnonymous] [] = some mAnonymous := by decide

/-- `TestISO8601` (iso8601_test.go:12-27) -/
example : iso8601 ⟨2024, 7, 10, 12, 30, 0, 0⟩ = str "2024-07-10T12:30:00Z" := by decide +kernel
example : iso8601 ⟨2024, 7, 10, 12, 30, 0, -1 * 60 * 60⟩ = str "2024-07-10T12:30:00-0100" := by decide +kernel
example : iso8601 ⟨2024, 7, 10, 12, 30, 0, 9 * 60 * 60⟩ = str "2024-07-10T12:30:00+0900" := by decide +kernel

def foo : Str := str "foo"
/-- `TestNewAnonymousAuthenticator` (anonymous_test.go:12-27) -/
example : (newAnonymous foo none).authID = foo ∧ (newAnonymous foo none).method = str "anonymous" ∧
    (newAnonymous foo none).authExtra = some [] ∧ (newAnonymous foo none).authenticate crypto (some []) = .err :=
  ⟨rfl, rfl, rfl, rfl⟩
/-- `TestNewTicketAuthenticator` (ticket_test.go:12-26) -/
example : (newTicket foo (str "ticket") none).authID = foo ∧ (newTicket foo (str "ticket") none).method = str "ticket" ∧
    (newTicket foo (str "ticket") none).authExtra = none ∧
    (newTicket foo (str "ticket") none).authenticate crypto (some []) = .ok (str "ticket", none) := ⟨rfl, rfl, rfl, rfl⟩

def secret : Str := str "secret"
def challenge : Str := str "{\n  \"authid\": \"authid\",\n  \"authmethod\": \"wampcra\",\n  \"authprovider\": \"provider\",\n  \"authrole\": \"authrole\",\n  \"nonce\": \"VJ/iO7bpl5rCiRGJ7IGuQg==\",\n  \"session\": 12345,\n  \"timestamp\": \"2024-07-09T14:32:29+0500\"\n}"
/-- `TestNewCRAAuthenticator` (wampcra_test.go:29-46) -/
example : (newCRA foo secret none).authID = foo ∧ (newCRA foo secret none).method = str "wampcra" ∧
    (newCRA foo secret none).authExtra = none := ⟨rfl, rfl, rfl⟩
example : (match (newCRA foo secret none).authenticate crypto (some [(str "challenge", .str challenge)]) with
    | .ok (sig, none) => decide (sig = signCRA crypto challenge secret)
    | _ => false) = true := by decide +kernel
/-- `TestSignCRAChallengeBytes`, `TestSignCRAChallenge` (wampcra_test.go:58-71) -/
example : signCRABytes crypto challenge secret = crypto.hmac secret challenge := rfl
example : signCRA crypto challenge secret = b64Encode (crypto.hmac secret challenge) := rfl
/-- `TestDeriveCRAKey` (wampcra_test.go:73-82): the base64 text of 32 bytes has 44 characters. -/
example : (match deriveCRAKey crypto (str "somesalt") secret 1000 32 with | .ok k => k.length | _ => 0) = 44 := by decide +kernel
/-- `TestVerifyCRASignature` (wampcra_test.go:84-93) -/
example : verifyCRA crypto (signCRA crypto challenge secret) challenge secret = true := by decide +kernel
example : verifyCRA crypto (str "invalidsig") challenge secret = false := by decide +kernel

/-- `TestGenerateCRAChallenge` (wampcra_test.go:95-116): what is in the text. -/
def generated : Dict :=
  match generateCRAChallenge ⟨some (List.replicate 16 5), 12345, ⟨2024, 7, 9, 14, 32, 29, 18000⟩⟩ (str "authid") (str "authrole")
      (str "provider") with
  | some t => (match Json.dec 100 t with | some (.map d, []) => d | _ => [])
  | none => []
example : ["authid", "authmethod", "authprovider", "authrole", "nonce", "timestamp"].map (fun k => (dget generated (str k)).bind Val.asStr?) =
    [str "authid", mCRA, str "provider", str "authrole", str "BQUFBQUFBQUFBQUFBQUFBQ==", str "2024-07-09T14:32:29+0500"].map some := by
  decide +kernel
example : (dget generated (str "session")).bind asUInt64 = some 12345 := by decide +kernel

/-! `auth/cryptosign_test.go`, with a stand-in for Ed25519 that has the key pair of the test -/
def testPublicKey : Str := str "2b7ec216daa877c7f4c9439db8a722ea2340eacad506988db2564e258284f895"
def testPrivateKey : Str := str "022b089bed5ab78808365e82dd12c796c835aeb98b4a5a9e099d3e72cb719516"
def testChallenge : Str := str "5c7b195948a15a9f94bdc31cf6d88294e380985e2c40f5f912fd707e080cb5ff"
def seed : Str := (hexDecode testPrivateKey).getD []
def pubKey : Str := (hexDecode testPublicKey).getD []
def ed : Crypto where
  hmac k _ := k
  pbkdf2 p _ _ _ := p
  pubOfSeed s := if s = seed then pubKey else s
  sign s m := s ++ m
  verify p m sig := decide (p = pubKey) && decide (sig = seed ++ m)

def extraOf : Res ClientAuth → GoMap
  | .ok a => a.authExtra
  | _ => none

/-- `TestNewCryptoSignAuthenticator` (cryptosign_test.go:21-70) -/
example : (match newCryptoSign ed foo testPrivateKey none with | .ok a => (a.authID, a.method) | _ => ([], [])) =
    (foo, str "cryptosign") := by decide +kernel
example : (extraOf (newCryptoSign ed foo testPrivateKey none)).get (str "pubkey") = some (.str testPublicKey) := rfl
example : newCryptoSign ed foo (str "invalidkey") none = .err := rfl
example : newCryptoSign ed (str "authID") testPrivateKey
    (some [(str "pubkey", .str (str "d057db19aa21f20419dfd385c3dae0cc39ecfc94f8acc921d5f9fc76443098f0"))]) = .err := rfl
example : extraOf (newCryptoSign ed foo testPrivateKey (some [(str "abc", .int .int 123)])) =
    some [(str "abc", .int .int 123), (str "pubkey", .str testPublicKey)] := rfl
example : (match newCryptoSign ed foo testPrivateKey none with
    | .ok a => (match a.authenticate ed (some [(str "challenge", .str testChallenge)]) with
      | .ok (s, _) => (hexDecode s).map List.length
      | _ => none)
    | _ => none) = some 96 := by decide +kernel
example : (extraOf (newCryptoSign ed foo testPrivateKey (some []))).get (str "pubkey") = some (.str testPublicKey) := rfl
/-- `TestSignCryptoSignChallenge`, `TestVerifyCryptoSignSignature` (cryptosign_test.go:72-99) -/
example : ((signCryptoSign ed testChallenge seed).bind hexDecode).map List.length = some 96 := by decide +kernel
example : (signCryptoSign ed testChallenge seed).bind (fun s => verifyCryptoSign ed s pubKey) = some true := by decide +kernel
/-- `TestGenerateCryptoSignChallenge`, `TestGenerateCryptoSignKeyPair` (cryptosign_test.go:101-118) -/
example : (cryptoSignChallenge (List.replicate 32 9)).length = 64 := by decide +kernel
example : (hexDecode (cryptoSignKeyPair ed seed).1).map List.length = some 32 ∧
    (hexDecode (cryptoSignKeyPair ed seed).2).map List.length = some 32 := by decide +kernel

/-! ### internal/map_test.go: `Store`, `Load`, `Delete` and `LoadAndDelete` of the session tables -/

open Session (Tab Prog)
def value : Prog (Option Nat) → Option Nat := fun p => (p.run Session.init).2
/-- `TestMapDelete`, `TestMapLoad`, `TestMapLoadAndDelete`, `TestMapStore` (map_test.go:11-50, 88-96) -/
example : value (.store .call 1 100 (.delete .call 1 (.load .call 1 .ret))) = none := by decide +kernel
example : value (.store .call 1 100 (.load .call 1 .ret)) = some 100 := by decide +kernel
example : value (.store .call 1 100 (.load .call 2 .ret)) = none := by decide +kernel
example : value (.store .call 1 100 (.loadAndDelete .call 1 .ret)) = some 100 := by decide +kernel
example : value (.store .call 1 100 (.loadAndDelete .call 1 fun _ => .load .call 1 .ret)) = none := by decide +kernel
example : value (.store .call 1 100 (.loadAndDelete .call 2 .ret)) = none := by decide +kernel

end Wamp.Conformance.Rest
