import Verif.Spec.Broker
import Verif.Spec.Dealer
/-!
# What the errors of a broker or a dealer say, and when that is so

`BrokerSays h op t`: after the calls `h`, the text `t` about the call `op` states a fact.  The facts are facts about the history: who is
attached, who holds which subscription or registration, which invocations were answered.
-/
namespace Wamp.Spec.RouterText

/-- A number in decimal. -/
def num (n : Nat) : Str := str s!"{n}"

/-- A number in binary. -/
def binary (n : Nat) : Str := str (String.ofList (Nat.toDigits 2 n))

/-- The Go type of a message of this class. -/
def goName : Kind → String
  | .hello => "Hello" | .welcome => "Welcome" | .abort => "Abort" | .challenge => "Challenge" | .authenticate => "Authenticate"
  | .goodbye => "GoodBye" | .error => "Error" | .publish => "Publish" | .published => "Published" | .subscribe => "Subscribe"
  | .subscribed => "Subscribed" | .unsubscribe => "Unsubscribe" | .unsubscribed => "Unsubscribed" | .event => "Event"
  | .call => "Call" | .cancel => "Cancel" | .result => "Result" | .register => "Register" | .registered => "Registered"
  | .unregister => "Unregister" | .unregistered => "Unregistered" | .invocation => "Invocation" | .interrupt => "Interrupt"
  | .yield => "Yield"

section
open Wamp.Broker

/-- The errors of a broker. -/
inductive BrokerSays (h : List Broker.Event) : Broker.Op → Str → Prop where
  | add (d : SessionDetails) : attached h d.id →
      BrokerSays h (.add d) (str "broker: cannot add session " ++ binary d.id ++ str ", it already exists")
  | remove (s : Nat) (o : List Nat) : ¬attached h s →
      BrokerSays h (.remove s o) (str "broker: cannot remove session " ++ binary s ++ str ", it doesn't exist")
  | subscribe (s q : Nat) (o : GoMap) (t : Str) : ¬attached h s →
      BrokerSays h (.receive s (.subscribe q o t)) (str "broker: cannot subscribe, session " ++ num s ++ str " doesn't exist")
  | unsubscribe (s q i : Nat) : ¬attached h s →
      BrokerSays h (.receive s (.unsubscribe q i)) (str "broker: cannot unsubscribe, session " ++ num s ++ str " doesn't exist")
  | nothing (s q i : Nat) : attached h s → (∀ t, current h s t ≠ some i) →
      BrokerSays h (.receive s (.unsubscribe q i)) (str "broker: cannot unsubscribe non-existent subscription " ++ num i)
  | error (s t q : Nat) (d : GoMap) (u : Str) (a : GoSlice) (k : GoMap) :
      BrokerSays h (.receive s (.error t q d u a k)) (str "broker: error handling is not implemented yet")
  | other (s : Nat) (m : Msg) : m.kind ≠ .subscribe → m.kind ≠ .unsubscribe → m.kind ≠ .error →
      BrokerSays h (.receive s m) (str "broker: received unexpected message of type *messages." ++ str (goName m.kind))
  | publish (s q : Nat) (o : GoMap) (t : Str) (a : GoSlice) (k : GoMap) (wo : List Str) (so : List Nat) : ¬attached h s →
      BrokerSays h (.publish s q o t a k wo so) (str "broker: cannot publish, session " ++ num s ++ str " doesn't exist")

end

section
open Wamp.Dealer

/-- The errors of a dealer. -/
inductive DealerSays (h : List Dealer.Event) : Dealer.Op → Str → Prop where
  | add (d : SessionDetails) : attached h d.id → DealerSays h (.add d) (str "cannot attach an already attached client " ++ num d.id)
  | remove (s : Nat) (o : List Nat) : ¬attached h s →
      DealerSays h (.remove s o) (str "cannot remove client with id " ++ num s ++ str " not attached")
  /-- The callee registered something once and is no longer there. -/
  | callee (s q : Nat) (o : GoMap) (p : Str) (a : GoSlice) (k : GoMap) (bin : Bin) (order : List Str) (rnd c : Nat) :
      ¬attached h c → (∃ e ∈ h, ∃ p' i, registeredAs c p' i e) →
      DealerSays h (.receive s (.call q o p a k bin) order rnd) (str "call: callee " ++ num c ++ str " gone before sending invocation")
  /-- No such invocation was sent, or it was answered before. -/
  | noCall (s i : Nat) (o : GoMap) (a : GoSlice) (k : GoMap) (bin : Bin) (order : List Str) (rnd : Nat) :
      ((∃ e ∈ h, ∃ c r x, invoked c r i x e) → ∃ e ∈ h, answerFor i e = true) →
      DealerSays h (.receive s (.yield i o a k bin) order rnd) (str "yield: not pending calls for session " ++ num s)
  /-- The caller made a call and is no longer there. -/
  | caller (s i : Nat) (o : GoMap) (a : GoSlice) (k : GoMap) (bin : Bin) (order : List Str) (rnd c : Nat) :
      ¬attached h c → (∃ e ∈ h, ∃ r o', isCall c r o' e) →
      DealerSays h (.receive s (.yield i o a k bin) order rnd) (str "yield: caller " ++ num c ++ str " gone before receiving result")
  | register (s q : Nat) (o : GoMap) (p : Str) (order : List Str) (rnd : Nat) : ¬attached h s →
      DealerSays h (.receive s (.register q o p) order rnd) (str "cannot register procedure for non-existent session " ++ num s)
  | unregister (s q i : Nat) (order : List Str) (rnd : Nat) : (∀ p, ¬holds h s p i) →
      DealerSays h (.receive s (.unregister q i) order rnd)
        (str "unregister: session " ++ num s ++ str " has no registration " ++ num i)
  | notInvocation (s t q : Nat) (d : GoMap) (u : Str) (a : GoSlice) (k : GoMap) (order : List Str) (rnd : Nat) : t ≠ 68 →
      DealerSays h (.receive s (.error t q d u a k) order rnd) (str "dealer: only expected to receive error in response to invocation")
  | noInvocation (s i : Nat) (d : GoMap) (u : Str) (a : GoSlice) (k : GoMap) (order : List Str) (rnd : Nat) :
      ((∃ e ∈ h, ∃ c r x, invoked c r i x e) → ∃ e ∈ h, answerFor i e = true) →
      DealerSays h (.receive s (.error 68 i d u a k) order rnd) (str "dealer: no pending invocation for " ++ num i)
  | other (s : Nat) (m : Msg) (order : List Str) (rnd : Nat) : m.kind ≠ .call → m.kind ≠ .yield → m.kind ≠ .register →
      m.kind ≠ .unregister → m.kind ≠ .error →
      DealerSays h (.receive s m order rnd) (str "dealer: received unexpected message of type *messages." ++ str (goName m.kind))

end

end Wamp.Spec.RouterText
