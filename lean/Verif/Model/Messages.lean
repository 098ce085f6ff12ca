import Verif.Model.Util
/-!
# `messages/*.go`: message values, constructors, `Type`, `Marshal`

`Msg` holds what the accessors of the library's own field structs return.  Custom implementations of the
`...Fields` interfaces (`New...WithFields`) are not modelled.
-/
namespace Wamp

/-- The `binary`, `serializer` and `payload` fields of CALL, RESULT, INVOCATION and YIELD
(messages/call.go:38-40, result.go:35-37, invocation.go:40-42, yield.go:35-37). -/
structure Bin where
  binary : Bool
  serializer : Nat
  payload : Str
  deriving DecidableEq, Repr

/-- Zero value: not a binary payload. -/
def Bin.none : Bin := ⟨false, 0, []⟩

/-- A WAMP message; one constructor per `messages/*.go` file. -/
inductive Msg where
  /-- messages/hello.go:30-36 -/
  | hello (realm authID : Str) (authMethods : Option (List Str)) (authExtra roles : GoMap)
  /-- messages/welcome.go:23-26 -/
  | welcome (sessionID : Nat) (details : GoMap)
  /-- messages/abort.go:27-32 -/
  | abort (details : GoMap) (reason : Str) (args : GoSlice) (kwargs : GoMap)
  /-- messages/challenge.go:23-26 -/
  | challenge (authMethod : Str) (extra : GoMap)
  /-- messages/authenticate.go:25-28 -/
  | authenticate (signature : Str) (extra : GoMap)
  /-- messages/goodbye.go:23-26 -/
  | goodbye (details : GoMap) (reason : Str)
  /-- messages/error.go:33-40 -/
  | error (messageType requestID : Nat) (details : GoMap) (uri : Str) (args : GoSlice) (kwargs : GoMap)
  /-- messages/publish.go:31-37 -/
  | publish (requestID : Nat) (options : GoMap) (topic : Str) (args : GoSlice) (kwargs : GoMap)
  /-- messages/published.go:23-26 -/
  | published (requestID publicationID : Nat)
  /-- messages/subscribe.go:25-29 -/
  | subscribe (requestID : Nat) (options : GoMap) (topic : Str)
  /-- messages/subscribed.go:23-26 -/
  | subscribed (requestID subscriptionID : Nat)
  /-- messages/unsubscribe.go:23-26 -/
  | unsubscribe (requestID subscriptionID : Nat)
  /-- messages/unsubscribed.go:21-23 -/
  | unsubscribed (requestID : Nat)
  /-- messages/event.go:31-37 -/
  | event (subscriptionID publicationID : Nat) (details : GoMap) (args : GoSlice) (kwargs : GoMap)
  /-- messages/call.go:31-41 -/
  | call (requestID : Nat) (options : GoMap) (procedure : Str) (args : GoSlice) (kwargs : GoMap) (bin : Bin)
  /-- messages/cancel.go:23-26 -/
  | cancel (requestID : Nat) (options : GoMap)
  /-- messages/result.go:29-38 -/
  | result (requestID : Nat) (details : GoMap) (args : GoSlice) (kwargs : GoMap) (bin : Bin)
  /-- messages/register.go:25-29 -/
  | register (requestID : Nat) (options : GoMap) (procedure : Str)
  /-- messages/registered.go:23-26 -/
  | registered (requestID registrationID : Nat)
  /-- messages/unregister.go:23-26 -/
  | unregister (requestID registrationID : Nat)
  /-- messages/unregistered.go:21-23 -/
  | unregistered (requestID : Nat)
  /-- messages/invocation.go:33-43 -/
  | invocation (requestID registrationID : Nat) (details : GoMap) (args : GoSlice) (kwargs : GoMap) (bin : Bin)
  /-- messages/interrupt.go:23-26 -/
  | interrupt (requestID : Nat) (options : GoMap)
  /-- messages/yield.go:29-38 -/
  | yield (requestID : Nat) (options : GoMap) (args : GoSlice) (kwargs : GoMap) (bin : Bin)
  deriving Repr

/-- The 24 message classes. -/
inductive Kind where
  | hello | welcome | abort | challenge | authenticate | goodbye | error | publish | published
  | subscribe | subscribed | unsubscribe | unsubscribed | event | call | cancel | result
  | register | registered | unregister | unregistered | invocation | interrupt | yield
  deriving DecidableEq, Repr

/-- Class of a message (its Go dynamic type). -/
def Msg.kind : Msg → Kind
  | .hello .. => .hello | .welcome .. => .welcome | .abort .. => .abort | .challenge .. => .challenge
  | .authenticate .. => .authenticate | .goodbye .. => .goodbye | .error .. => .error
  | .publish .. => .publish | .published .. => .published | .subscribe .. => .subscribe
  | .subscribed .. => .subscribed | .unsubscribe .. => .unsubscribe | .unsubscribed .. => .unsubscribed
  | .event .. => .event | .call .. => .call | .cancel .. => .cancel | .result .. => .result
  | .register .. => .register | .registered .. => .registered | .unregister .. => .unregister
  | .unregistered .. => .unregistered | .invocation .. => .invocation | .interrupt .. => .interrupt
  | .yield .. => .yield

/-- The constants `MessageType...` at the head of each messages/*.go file. -/
def Kind.code : Kind → Nat
  | .hello => 1 | .welcome => 2 | .abort => 3 | .challenge => 4 | .authenticate => 5 | .goodbye => 6
  | .error => 8 | .publish => 16 | .published => 17 | .subscribe => 32 | .subscribed => 33
  | .unsubscribe => 34 | .unsubscribed => 35 | .event => 36 | .call => 48 | .cancel => 49
  | .result => 50 | .register => 64 | .registered => 65 | .unregister => 66 | .unregistered => 67
  | .invocation => 68 | .interrupt => 69 | .yield => 70

/-- `Type()` of each message (e.g. messages/call.go:113-115). -/
def Msg.type (m : Msg) : Nat := m.kind.code

/-- `if m == nil { m = make(map[string]any) }` -/
def orEmpty (m : GoMap) : GoMap := some (m.getD [])

/-- `m["x_payload_serializer"] = serializer` on a possibly nil argument map, after the nil check. -/
def withSerializer (m : GoMap) (serializer : Nat) : GoMap :=
  some (dset (m.getD []) (str "x_payload_serializer") (.u64 serializer))

/-! Constructors.  (The Go binary constructors write into the caller's map; the model returns the new map.) -/

/-- messages/hello.go:64-72 -/
def newHello (realm authID : Str) (authExtra roles : GoMap) (authMethods : Option (List Str)) : Msg :=
  .hello realm authID authMethods authExtra roles
/-- messages/welcome.go:40-42 -/
def newWelcome (sessionID : Nat) (details : GoMap) : Msg := .welcome sessionID details
/-- messages/abort.go:54-65 -/
def newAbort (details : GoMap) (reason : Str) (args : GoSlice) (kwargs : GoMap) : Msg :=
  .abort (orEmpty details) reason args kwargs
/-- messages/challenge.go:44-46 -/
def newChallenge (authMethod : Str) (extra : GoMap) : Msg := .challenge authMethod extra
/-- messages/authenticate.go:46-48 -/
def newAuthenticate (signature : Str) (extra : GoMap) : Msg := .authenticate signature extra
/-- messages/goodbye.go:42-48 -/
def newGoodBye (reason : Str) (details : GoMap) : Msg := .goodbye (orEmpty details) reason
/-- messages/error.go:84-98 -/
def newError (messageType requestID : Nat) (details : GoMap) (uri : Str) (args : GoSlice) (kwargs : GoMap) : Msg :=
  .error messageType requestID (orEmpty details) uri args kwargs
/-- messages/publish.go:75-87 -/
def newPublish (requestID : Nat) (options : GoMap) (topic : Str) (args : GoSlice) (kwargs : GoMap) : Msg :=
  .publish requestID (orEmpty options) topic args kwargs
/-- messages/published.go:40-42 -/
def newPublished (requestID publicationID : Nat) : Msg := .published requestID publicationID
/-- messages/subscribe.go:51-57 -/
def newSubscribe (requestID : Nat) (options : GoMap) (topic : Str) : Msg :=
  .subscribe requestID (orEmpty options) topic
/-- messages/subscribed.go:40-42 -/
def newSubscribed (requestID subscriptionID : Nat) : Msg := .subscribed requestID subscriptionID
/-- messages/unsubscribe.go:40-42 -/
def newUnsubscribe (requestID subscriptionID : Nat) : Msg := .unsubscribe requestID subscriptionID
/-- messages/unsubscribed.go:33-35 -/
def newUnsubscribed (requestID : Nat) : Msg := .unsubscribed requestID
/-- messages/event.go:77-89 -/
def newEvent (subscriptionID publicationID : Nat) (details : GoMap) (args : GoSlice) (kwargs : GoMap) : Msg :=
  .event subscriptionID publicationID (orEmpty details) args kwargs
/-- messages/call.go:79-91 -/
def newCall (requestID : Nat) (options : GoMap) (procedure : Str) (args : GoSlice) (kwargs : GoMap) : Msg :=
  .call requestID (orEmpty options) procedure args kwargs Bin.none
/-- messages/call.go:95-111 -/
def newCallBinary (requestID : Nat) (options : GoMap) (procedure : Str) (payload : Str) (serializer : Nat) : Msg :=
  .call requestID (withSerializer options serializer) procedure none none ⟨true, serializer, payload⟩
/-- messages/cancel.go:40-46 -/
def newCancel (requestID : Nat) (options : GoMap) : Msg := .cancel requestID (orEmpty options)
/-- messages/result.go:72-78 -/
def newResult (requestID : Nat) (details : GoMap) (args : GoSlice) (kwargs : GoMap) : Msg :=
  .result requestID (orEmpty details) args kwargs Bin.none
/-- messages/result.go:84-98 -/
def newResultBinary (requestID : Nat) (details : GoMap) (payload : Str) (serializer : Nat) : Msg :=
  .result requestID (withSerializer details serializer) none none ⟨true, serializer, payload⟩
/-- messages/register.go:47-53 -/
def newRegister (requestID : Nat) (options : GoMap) (procedure : Str) : Msg :=
  .register requestID (orEmpty options) procedure
/-- messages/registered.go:40-42 -/
def newRegistered (requestID registrationID : Nat) : Msg := .registered requestID registrationID
/-- messages/unregister.go:40-42 -/
def newUnregister (requestID registrationID : Nat) : Msg := .unregister requestID registrationID
/-- messages/unregistered.go:33-35 -/
def newUnregistered (requestID : Nat) : Msg := .unregistered requestID
/-- messages/invocation.go:81-95 -/
def newInvocation (requestID registrationID : Nat) (details : GoMap) (args : GoSlice) (kwargs : GoMap) : Msg :=
  .invocation requestID registrationID (orEmpty details) args kwargs Bin.none
/-- messages/invocation.go:101-118 -/
def newInvocationBinary (requestID registrationID : Nat) (details : GoMap) (payload : Str) (serializer : Nat) : Msg :=
  .invocation requestID registrationID (withSerializer details serializer) none none ⟨true, serializer, payload⟩
/-- messages/interrupt.go:44-50 -/
def newInterrupt (requestID : Nat) (options : GoMap) : Msg := .interrupt requestID (orEmpty options)
/-- messages/yield.go:72-78 -/
def newYield (requestID : Nat) (options : GoMap) (args : GoSlice) (kwargs : GoMap) : Msg :=
  .yield requestID (orEmpty options) args kwargs Bin.none
/-- messages/yield.go:84-98 -/
def newYieldBinary (requestID : Nat) (options : GoMap) (payload : Str) (serializer : Nat) : Msg :=
  .yield requestID (withSerializer options serializer) none none ⟨true, serializer, payload⟩

/-- `PayloadIsBinary()`: the stored flag for CALL, INVOCATION and YIELD (messages/call.go:63-65), but
`serializer != 0` for RESULT (messages/result.go:56-58), and constantly false otherwise. -/
def Msg.payloadIsBinary : Msg → Bool
  | .call _ _ _ _ _ b => b.binary
  | .invocation _ _ _ _ _ b => b.binary
  | .yield _ _ _ _ b => b.binary
  | .result _ _ _ _ b => b.serializer != 0
  | _ => false

/-- The tail `[args [, kwargs]]` appended by most `Marshal` methods, e.g. messages/call.go:137-147:
a nil args slice is replaced by `[]any{}` when kwargs are present. -/
def marshalTail (args : GoSlice) (kwargs : GoMap) : List Val :=
  (match args with | some a => [Val.arr a] | none => []) ++
  (match kwargs with
   | some k => (match args with | none => [Val.arr []] | some _ => []) ++ [Val.map k]
   | none => [])

/-- The variant in messages/abort.go:92-102, which appends the nil slice itself instead of `[]any{}`. -/
def marshalTailAbort (args : GoSlice) (kwargs : GoMap) : List Val :=
  (match args with | some a => [Val.arr a] | none => []) ++
  (match kwargs with
   | some k => (match args with | none => [Val.ofSlice args] | some _ => []) ++ [Val.map k]
   | none => [])

/-- `Marshal()` of every message (the last method of each messages/*.go file). -/
def Msg.marshal : Msg → List Val
  -- messages/hello.go:115-129
  | .hello realm authID authMethods authExtra roles =>
    [.u64 1, .str realm, .map
      [(str "authextra", Val.ofMap (orEmpty authExtra)), (str "authid", .str authID),
       (str "authmethods", Val.ofStrs authMethods), (str "roles", Val.ofMap roles)]]
  -- messages/welcome.go:61-63
  | .welcome sid d => [.u64 2, .u64 sid, Val.ofMap d]
  -- messages/abort.go:89-105
  | .abort d reason a k => [.u64 3, Val.ofMap d, .str reason] ++ marshalTailAbort a k
  -- messages/challenge.go:63-65
  | .challenge am e => [.u64 4, .str am, Val.ofMap e]
  -- messages/authenticate.go:68-75
  | .authenticate sig e => [.u64 5, .str sig, Val.ofMap (orEmpty e)]
  -- messages/goodbye.go:65-67
  | .goodbye d reason => [.u64 6, Val.ofMap d, .str reason]
  -- messages/error.go:122-138
  | .error mt r d uri a k => [.u64 8, .u64 mt, .u64 r, Val.ofMap d, .str uri] ++ marshalTail a k
  -- messages/publish.go:112-128
  | .publish r o t a k => [.u64 16, .u64 r, Val.ofMap o, .str t] ++ marshalTail a k
  -- messages/published.go:66-68
  | .published r p => [.u64 17, .u64 r, .u64 p]
  -- messages/subscribe.go:78-80
  | .subscribe r o t => [.u64 32, .u64 r, Val.ofMap o, .str t]
  -- messages/subscribed.go:63-65
  | .subscribed r s => [.u64 33, .u64 r, .u64 s]
  -- messages/unsubscribe.go:63-65
  | .unsubscribe r s => [.u64 34, .u64 r, .u64 s]
  -- messages/unsubscribed.go:56-58
  | .unsubscribed r => [.u64 35, .u64 r]
  -- messages/event.go:112-128
  | .event s p d a k => [.u64 36, .u64 s, .u64 p, Val.ofMap d] ++ marshalTail a k
  -- messages/call.go:134-150
  | .call r o p a k _ => [.u64 48, .u64 r, Val.ofMap o, .str p] ++ marshalTail a k
  -- messages/cancel.go:70-72
  | .cancel r o => [.u64 49, .u64 r, Val.ofMap o]
  -- messages/result.go:120-136
  | .result r d a k _ => [.u64 50, .u64 r, Val.ofMap d] ++ marshalTail a k
  -- messages/register.go:74-76
  | .register r o p => [.u64 64, .u64 r, Val.ofMap o, .str p]
  -- messages/registered.go:63-65
  | .registered r g => [.u64 65, .u64 r, .u64 g]
  -- messages/unregister.go:63-65
  | .unregister r g => [.u64 66, .u64 r, .u64 g]
  -- messages/unregistered.go:56-58
  | .unregistered r => [.u64 67, .u64 r]
  -- messages/invocation.go:141-157
  | .invocation r g d a k _ => [.u64 68, .u64 r, .u64 g, Val.ofMap d] ++ marshalTail a k
  -- messages/interrupt.go:67-69
  | .interrupt r o => [.u64 69, .u64 r, Val.ofMap o]
  -- messages/yield.go:120-136
  | .yield r o a k _ => [.u64 70, .u64 r, Val.ofMap o] ++ marshalTail a k

end Wamp
