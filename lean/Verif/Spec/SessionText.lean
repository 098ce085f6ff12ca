import Verif.Spec.Session
import Verif.Spec.RouterText
/-!
# What the errors of a client session say, and when that is so

`SendSays h m t` and `RecvSays h m t`: after the calls `h`, the text `t` about sending or receiving the message `m` states a fact.
-/
namespace Wamp.Spec.SessionText
open Wamp.Session Wamp.Spec.RouterText

/-- The kinds of requests an ERROR can answer: name, number of the message type, and whether the request `r` is outstanding after `h`. -/
def requests : List (String × Nat × (Nat → List Event → Prop)) :=
  [("call", 48, fun r h => since (callSent r) (callSettled r) h = true),
   ("register", 64, fun r h => since (registerSent r) (registerSettled r) h = true),
   ("unregister", 66, fun r h => ∃ g, unregisterAsked r h = some g),
   ("subscribe", 32, fun r h => since (subscribeSent r) (errorGot 32 r) h = true),
   ("unsubscribe", 34, fun r h => ∃ g, unsubscribeAsked r h = some g),
   ("publish", 16, fun r h => since (publishSent r) (publishSettled r) h = true)]

/-- The classes of messages a client sends. -/
def sendable : List Kind := [.call, .yield, .register, .unregister, .publish, .subscribe, .unsubscribe, .error, .goodbye]

/-- The classes of messages a client receives. -/
def receivable : List Kind :=
  [.result, .registered, .unregistered, .invocation, .published, .subscribed, .unsubscribed, .event, .error, .goodbye, .abort]

/-- The errors of `SendMessage`, if the message could be serialized. -/
inductive SendSays (h : List Event) : Msg → Str → Prop where
  | unsubscribe (r g : Nat) : subscribed g h = false →
      SendSays h (.unsubscribe r g) (str "unsubscribe request for non existent subscription " ++ num g)
  | error (t r : Nat) (d : GoMap) (u : Str) (a : GoSlice) (k : GoMap) : t ≠ 68 →
      SendSays h (.error t r d u a k) (str "send only supported for invocation error")
  | other (m : Msg) : m.kind ∉ sendable →
      SendSays h m (str "send not supported for message of type *messages." ++ str (goName m.kind))

/-- The errors of `ReceiveMessage`. -/
inductive RecvSays (h : List Event) : Msg → Str → Prop where
  | result (r : Nat) (d : GoMap) (a : GoSlice) (k : GoMap) (b : Bin) : since (callSent r) (callSettled r) h = false →
      RecvSays h (.result r d a k b) (str "received RESULT for invalid requestID")
  | registered (r g : Nat) : since (registerSent r) (registerSettled r) h = false →
      RecvSays h (.registered r g) (str "received REGISTERED for invalid requestID")
  | unregistered (r : Nat) : unregisterAsked r h = none →
      RecvSays h (.unregistered r) (str "received UNREGISTERED for invalid requestID")
  | unregisteredID (r g : Nat) : unregisterAsked r h = some g → Session.registered g h = false →
      RecvSays h (.unregistered r) (str "received UNREGISTERED for invalid registrationID")
  | invocation (r g : Nat) (d : GoMap) (a : GoSlice) (k : GoMap) (b : Bin) : Session.registered g h = false →
      RecvSays h (.invocation r g d a k b) (str "received INVOCATION for invalid registrationID")
  | published (r p : Nat) : since (publishSent r) (publishSettled r) h = false →
      RecvSays h (.published r p) (str "received PUBLISHED for invalid requestID")
  | subscribed (r g : Nat) : since (subscribeSent r) (errorGot 32 r) h = false →
      RecvSays h (.subscribed r g) (str "received SUBSCRIBED for invalid requestID")
  | unsubscribed (r : Nat) : unsubscribeAsked r h = none →
      RecvSays h (.unsubscribed r) (str "received UNSUBSCRIBED for invalid requestID")
  | unsubscribedID (r g : Nat) : unsubscribeAsked r h = some g → Session.subscribed g h = false →
      RecvSays h (.unsubscribed r) (str "received UNSUBSCRIBED for invalid subscriptionID " ++ num g)
  | event (g p : Nat) (d : GoMap) (a : GoSlice) (k : GoMap) : Session.subscribed g h = false →
      RecvSays h (.event g p d a k) (str "received EVENT for invalid subscriptionID")
  | error (n : String) (t : Nat) (open' : Nat → List Event → Prop) (r : Nat) (d : GoMap) (u : Str) (a : GoSlice) (k : GoMap) :
      (n, t, open') ∈ requests → ¬open' r h →
      RecvSays h (.error t r d u a k) (str "received ERROR for invalid " ++ str n ++ str " request")
  | unknownError (t r : Nat) (d : GoMap) (u : Str) (a : GoSlice) (k : GoMap) : t ∉ requests.map (fun p => p.2.1) →
      RecvSays h (.error t r d u a k) (str "unknown error message type *messages.Error")
  | other (m : Msg) : m.kind ∉ receivable →
      RecvSays h m (str "unknown message type *messages." ++ str (goName m.kind))

end Wamp.Spec.SessionText
