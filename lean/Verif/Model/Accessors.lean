import Verif.Model.Messages
/-!
# The accessor methods of the messages

`Msg.get m f` calls the method named `f`; `none` means that the Go type has no such method.
-/
namespace Wamp

/-- The names of the accessor methods. -/
inductive Field where
  | requestID | messageType | subscriptionID | publicationID | registrationID | sessionID
  | options | details | extra | args | kwArgs
  | procedure | topic | reason | uri | signature | authMethod
  | realm | authID | authMethods | authExtra | roles
  | payloadIsBinary | payload | payloadSerializer
  deriving DecidableEq, Repr

/-- What an accessor returns, by its Go type. -/
inductive Obs where
  | id (n : Nat)
  | text (s : Str)
  | texts (l : Option (List Str))
  | dict (d : GoMap)
  | list (l : GoSlice)
  | flag (b : Bool)
  | bytes (b : Str)

/-- The methods of HELLO (messages/hello.go:38-56), WELCOME (welcome.go:28-34), ABORT (abort.go:34-48), CHALLENGE (challenge.go:28-34),
AUTHENTICATE (authenticate.go:30-36), GOODBYE (goodbye.go:28-34), ERROR (error.go:42-76), PUBLISH (publish.go:39-69), PUBLISHED
(published.go:28-34), SUBSCRIBE (subscribe.go:35-45), SUBSCRIBED (subscribed.go:28-34), UNSUBSCRIBE (unsubscribe.go:28-34), UNSUBSCRIBED
(unsubscribed.go:25-27), EVENT (event.go:39-69), CALL (call.go:43-73), CANCEL (cancel.go:28-34), RESULT (result.go:40-66), REGISTER
(register.go:31-41), REGISTERED (registered.go:28-34), UNREGISTER (unregister.go:28-34), UNREGISTERED (unregistered.go:25-27), INVOCATION
(invocation.go:45-75), INTERRUPT (interrupt.go:28-34) and YIELD (yield.go:40-66).  `Payload` of ERROR, PUBLISH and EVENT is nil, which is
the empty list of bytes here. -/
def Msg.get : Msg → Field → Option Obs
  | .hello r _ _ _ _, .realm => some (.text r)
  | .hello _ i _ _ _, .authID => some (.text i)
  | .hello _ _ m _ _, .authMethods => some (.texts m)
  | .hello _ _ _ x _, .authExtra => some (.dict x)
  | .hello _ _ _ _ r, .roles => some (.dict r)
  | .welcome s _, .sessionID => some (.id s)
  | .welcome _ d, .details => some (.dict d)
  | .abort d _ _ _, .details => some (.dict d)
  | .abort _ r _ _, .reason => some (.text r)
  | .abort _ _ a _, .args => some (.list a)
  | .abort _ _ _ k, .kwArgs => some (.dict k)
  | .challenge m _, .authMethod => some (.text m)
  | .challenge _ e, .extra => some (.dict e)
  | .authenticate s _, .signature => some (.text s)
  | .authenticate _ e, .extra => some (.dict e)
  | .goodbye d _, .details => some (.dict d)
  | .goodbye _ r, .reason => some (.text r)
  | .error t _ _ _ _ _, .messageType => some (.id t)
  | .error _ r _ _ _ _, .requestID => some (.id r)
  | .error _ _ d _ _ _, .details => some (.dict d)
  | .error _ _ _ u _ _, .uri => some (.text u)
  | .error _ _ _ _ a _, .args => some (.list a)
  | .error _ _ _ _ _ k, .kwArgs => some (.dict k)
  | .error .., .payloadIsBinary => some (.flag false)
  | .error .., .payload => some (.bytes [])
  | .error .., .payloadSerializer => some (.id 0)
  | .publish r _ _ _ _, .requestID => some (.id r)
  | .publish _ o _ _ _, .options => some (.dict o)
  | .publish _ _ t _ _, .topic => some (.text t)
  | .publish _ _ _ a _, .args => some (.list a)
  | .publish _ _ _ _ k, .kwArgs => some (.dict k)
  | .publish .., .payloadIsBinary => some (.flag false)
  | .publish .., .payload => some (.bytes [])
  | .publish .., .payloadSerializer => some (.id 0)
  | .published r _, .requestID => some (.id r)
  | .published _ p, .publicationID => some (.id p)
  | .subscribe r _ _, .requestID => some (.id r)
  | .subscribe _ o _, .options => some (.dict o)
  | .subscribe _ _ t, .topic => some (.text t)
  | .subscribed r _, .requestID => some (.id r)
  | .subscribed _ s, .subscriptionID => some (.id s)
  | .unsubscribe r _, .requestID => some (.id r)
  | .unsubscribe _ s, .subscriptionID => some (.id s)
  | .unsubscribed r, .requestID => some (.id r)
  | .event s _ _ _ _, .subscriptionID => some (.id s)
  | .event _ p _ _ _, .publicationID => some (.id p)
  | .event _ _ d _ _, .details => some (.dict d)
  | .event _ _ _ a _, .args => some (.list a)
  | .event _ _ _ _ k, .kwArgs => some (.dict k)
  | .event .., .payloadIsBinary => some (.flag false)
  | .event .., .payload => some (.bytes [])
  | .event .., .payloadSerializer => some (.id 0)
  | .call r _ _ _ _ _, .requestID => some (.id r)
  | .call _ o _ _ _ _, .options => some (.dict o)
  | .call _ _ p _ _ _, .procedure => some (.text p)
  | .call _ _ _ a _ _, .args => some (.list a)
  | .call _ _ _ _ k _, .kwArgs => some (.dict k)
  | .call r o p a k b, .payloadIsBinary => some (.flag (Msg.call r o p a k b).payloadIsBinary)
  | .call _ _ _ _ _ b, .payload => some (.bytes b.payload)
  | .call _ _ _ _ _ b, .payloadSerializer => some (.id b.serializer)
  | .cancel r _, .requestID => some (.id r)
  | .cancel _ o, .options => some (.dict o)
  | .result r _ _ _ _, .requestID => some (.id r)
  | .result _ d _ _ _, .details => some (.dict d)
  | .result _ _ a _ _, .args => some (.list a)
  | .result _ _ _ k _, .kwArgs => some (.dict k)
  | .result r d a k b, .payloadIsBinary => some (.flag (Msg.result r d a k b).payloadIsBinary)
  | .result _ _ _ _ b, .payload => some (.bytes b.payload)
  | .result _ _ _ _ b, .payloadSerializer => some (.id b.serializer)
  | .register r _ _, .requestID => some (.id r)
  | .register _ o _, .options => some (.dict o)
  | .register _ _ p, .procedure => some (.text p)
  | .registered r _, .requestID => some (.id r)
  | .registered _ g, .registrationID => some (.id g)
  | .unregister r _, .requestID => some (.id r)
  | .unregister _ g, .registrationID => some (.id g)
  | .unregistered r, .requestID => some (.id r)
  | .invocation r _ _ _ _ _, .requestID => some (.id r)
  | .invocation _ g _ _ _ _, .registrationID => some (.id g)
  | .invocation _ _ d _ _ _, .details => some (.dict d)
  | .invocation _ _ _ a _ _, .args => some (.list a)
  | .invocation _ _ _ _ k _, .kwArgs => some (.dict k)
  | .invocation r g d a k b, .payloadIsBinary => some (.flag (Msg.invocation r g d a k b).payloadIsBinary)
  | .invocation _ _ _ _ _ b, .payload => some (.bytes b.payload)
  | .invocation _ _ _ _ _ b, .payloadSerializer => some (.id b.serializer)
  | .interrupt r _, .requestID => some (.id r)
  | .interrupt _ o, .options => some (.dict o)
  | .yield r _ _ _ _, .requestID => some (.id r)
  | .yield _ o _ _ _, .options => some (.dict o)
  | .yield _ _ a _ _, .args => some (.list a)
  | .yield _ _ _ k _, .kwArgs => some (.dict k)
  | .yield r o a k b, .payloadIsBinary => some (.flag (Msg.yield r o a k b).payloadIsBinary)
  | .yield _ _ _ _ b, .payload => some (.bytes b.payload)
  | .yield _ _ _ _ b, .payloadSerializer => some (.id b.serializer)
  | _, _ => none

/-- A call of one of the constructors `New...`, with its arguments in the order of the Go signature; `M` stands for
`map[string]any`: its contents, or a reference to it. -/
inductive Build (M : Type) where
  | hello (realm authID : Str) (authExtra roles : M) (authMethods : Option (List Str))
  | welcome (sessionID : Nat) (details : M)
  | abort (details : M) (reason : Str) (args : GoSlice) (kwargs : M)
  | challenge (authMethod : Str) (extra : M)
  | authenticate (signature : Str) (extra : M)
  | goodbye (reason : Str) (details : M)
  | error (messageType requestID : Nat) (details : M) (uri : Str) (args : GoSlice) (kwargs : M)
  | publish (requestID : Nat) (options : M) (topic : Str) (args : GoSlice) (kwargs : M)
  | published (requestID publicationID : Nat)
  | subscribe (requestID : Nat) (options : M) (topic : Str)
  | subscribed (requestID subscriptionID : Nat)
  | unsubscribe (requestID subscriptionID : Nat)
  | unsubscribed (requestID : Nat)
  | event (subscriptionID publicationID : Nat) (details : M) (args : GoSlice) (kwargs : M)
  | call (requestID : Nat) (options : M) (procedure : Str) (args : GoSlice) (kwargs : M)
  | callBinary (requestID : Nat) (options : M) (procedure : Str) (payload : Str) (serializer : Nat)
  | cancel (requestID : Nat) (options : M)
  | result (requestID : Nat) (details : M) (args : GoSlice) (kwargs : M)
  | resultBinary (requestID : Nat) (details : M) (payload : Str) (serializer : Nat)
  | register (requestID : Nat) (options : M) (procedure : Str)
  | registered (requestID registrationID : Nat)
  | unregister (requestID registrationID : Nat)
  | unregistered (requestID : Nat)
  | invocation (requestID registrationID : Nat) (details : M) (args : GoSlice) (kwargs : M)
  | invocationBinary (requestID registrationID : Nat) (details : M) (payload : Str) (serializer : Nat)
  | interrupt (requestID : Nat) (options : M)
  | yield (requestID : Nat) (options : M) (args : GoSlice) (kwargs : M)
  | yieldBinary (requestID : Nat) (options : M) (payload : Str) (serializer : Nat)

/-- Runs the constructor (Model/Messages has each of them with its lines). -/
def Build.run : Build GoMap → Msg
  | .hello r i x o m => newHello r i x o m
  | .welcome s d => newWelcome s d
  | .abort d r a k => newAbort d r a k
  | .challenge m e => newChallenge m e
  | .authenticate s e => newAuthenticate s e
  | .goodbye r d => newGoodBye r d
  | .error t r d u a k => newError t r d u a k
  | .publish r o t a k => newPublish r o t a k
  | .published r p => newPublished r p
  | .subscribe r o t => newSubscribe r o t
  | .subscribed r s => newSubscribed r s
  | .unsubscribe r s => newUnsubscribe r s
  | .unsubscribed r => newUnsubscribed r
  | .event s p d a k => newEvent s p d a k
  | .call r o p a k => newCall r o p a k
  | .callBinary r o p b s => newCallBinary r o p b s
  | .cancel r o => newCancel r o
  | .result r d a k => newResult r d a k
  | .resultBinary r d b s => newResultBinary r d b s
  | .register r o p => newRegister r o p
  | .registered r g => newRegistered r g
  | .unregister r g => newUnregister r g
  | .unregistered r => newUnregistered r
  | .invocation r g d a k => newInvocation r g d a k
  | .invocationBinary r g d b s => newInvocationBinary r g d b s
  | .interrupt r o => newInterrupt r o
  | .yield r o a k => newYield r o a k
  | .yieldBinary r o b s => newYieldBinary r o b s

end Wamp
