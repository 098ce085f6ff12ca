import Verif.Model.ErrorText
import Verif.Model.RouterText
import Verif.Model.HandshakeText
import Verif.Conformance.Router
/-!
# The tests of the repository that look at error texts, replayed on the model

messages/validator_test.go, util/util_test.go, auth/anonymous_test.go, broker_test.go and dealer_test.go.  These are tests of the model, not proofs.
-/
namespace Wamp.Conformance.Texts
open Wamp.ErrorText

/-- The text of a result. -/
private def textOf {α : Type} : TRes α → Option Str
  | .err t => some t
  | _ => none

private def n (i : Int) : Val := .int .int i
private def s (x : String) : Val := .str (str x)
private def m0 : Val := .map []
private def run (vd : Vd) (msg : List Val) (i : Nat) : Option Str := textOf (validator (fun _ => []) vd msg i {})

-- messages/validator_test.go:32-39
example : run .args [n 1, s "io.xconn.test", m0, s "invalidType"] 3 = some (str "item at index 3 must be of type []any but was string") := by decide +kernel
-- :53-60
example : run .sessionID [s "invalidType", s "io.xconn.test", m0] 0 = some (str "item at index 0 must be of type uint64 but was string") := by decide +kernel
-- :74-81
example : run .messageType [n 1, s "invalid", m0] 1 = some (str "item at index 1 must be of type uint64 but was string") := by decide +kernel
-- :95-102
example : run .requestID [s "invalid", n 1, m0] 0 = some (str "item at index 0 must be of type uint64 but was string") := by decide +kernel
-- :116-165
example : [Vd.registrationID, .publicationID, .subscriptionID].all (fun vd => run vd [n 1, s "invalid", m0] 1 =
    some (str "item at index 1 must be of type uint64 but was string")) := by decide +kernel
-- :179-270
example : [Vd.signature, .uri, .realm, .authMethod, .reason].all (fun vd => run vd [n 1, n 1, m0] 1 =
    some (str "item at index 1 must be of type string but was int")) := by decide +kernel
-- :284-333
example : [Vd.extra, .options, .details].all (fun vd => run vd [n 1, s "io.xconn.test", n 1] 2 =
    some (str "item at index 2 must be of type map[string]any but was int")) := by decide +kernel
-- :357-364
example : run .kwargs [n 1, s "io.xconn.test", m0, .strs [], n 1] 4 = some (str "item at index 4 must be of type map[string]any but was int") := by decide +kernel

/-- messages/validator_test.go:368-378 -/
private def spec : List (Nat × Vd) := [(0, .sessionID), (1, .uri), (2, .options), (3, .args), (4, .kwargs)]
private def validate (order : List (Nat × Vd)) (msg : List Val) : Option Str := textOf (ErrorText.validateMessage (fun _ => []) msg 3 5 order)

-- :380-387
example : validate spec [n 1, s "io.xconn.test", m0, .arr [s "abc", n 1]] = none := by decide +kernel
-- :389-395
example : (validate spec [n 1]).map (fun t => (str "unexpected message length").isPrefixOf t) = some true := by decide +kernel
-- :397-402
example : validate spec [n 1, s "io.xconn.test", m0, s "invalidType"] = some (str "item at index 3 must be of type []any but was string") := by decide +kernel
-- :404-414, both orders
example : validate spec [n 1, s "io.xconn.test", m0, s "invalidType", s "extra"] =
    some (str "item at index 3 must be of type []any but was string\nitem at index 4 must be of type map[string]any but was string") := by decide +kernel
example : validate spec.reverse [n 1, s "io.xconn.test", m0, s "invalidType", s "extra"] =
    some (str "item at index 4 must be of type map[string]any but was string\nitem at index 3 must be of type []any but was string") := by decide +kernel

-- util/util_test.go:127-133; `%v` of 123 is "123"
example : notAString (fun | .int _ i => str (toString i) | _ => []) [s "foo", n 123, s "bar"] = str "element 123 is not a string" := by decide +kernel

-- auth/anonymous_test.go:20-26
example : HandshakeText.clientError (newAnonymous (str "foo") none) none =
    some (str "func Authenticate() must not be called for anonymous authentication") := rfl

/-! ### broker_test.go and dealer_test.go -/

/-- The error of a call after other calls on a new broker. -/
private def brokerSays (ops : List Broker.Op) (op : Broker.Op) : Option Str :=
  RouterText.brokerError (Broker.exec PathMatch.wildcardMatch ([], Broker.init) ops).2 op
private def subscribed1 : List Broker.Op := [.add (peer 1), .receive 1 (newSubscribe 1 none (str "foo.bar"))]

-- broker_test.go:86-90
example : brokerSays subscribed1 (publishBar 5 1 ack) = some (str "broker: cannot publish, session 5 doesn't exist") := by decide +kernel
-- :136-140
example : brokerSays subscribed1 (.receive 5 (newSubscribe 4 none (str "foo.bar"))) = some (str "broker: cannot subscribe, session 5 doesn't exist") := by decide +kernel
-- :142-147
example : brokerSays subscribed1 (.receive 5 (newUnsubscribe 5 1)) = some (str "broker: cannot unsubscribe, session 5 doesn't exist") := by decide +kernel
-- :149-154
example : brokerSays subscribed1 (.receive 1 (newUnsubscribe 3 5)) = some (str "broker: cannot unsubscribe non-existent subscription 5") := by decide +kernel

/-- The error of a call after other calls on a new dealer. -/
private def dealerSays (ops : List Dealer.Op) (op : Dealer.Op) : Option Str :=
  RouterText.dealerError PathMatch.wildcardMatch (Dealer.exec PathMatch.wildcardMatch ([], Dealer.init) ops).2 op
private def registered1 : List Dealer.Op := [.add (peer 1), .receive 1 (newRegister 1 none (str "foo.bar")) [] 0]

-- dealer_test.go:66-70
example : dealerSays registered1 (.receive 5 (newRegister 2 none (str "foo.bar")) [] 0) =
    some (str "cannot register procedure for non-existent session 5") := by decide +kernel
-- :103-106
example : dealerSays registered1 (.receive 5 (newYield 2 (some []) (some [.str (str "abc")]) none) [] 0) =
    some (str "yield: not pending calls for session 5") := by decide +kernel
-- :120-123
example : dealerSays (registered1 ++ [.receive 1 (newUnregister 1 1) [] 0]) (.receive 1 (newUnregister 1 1) [] 0) =
    some (str "unregister: session 1 has no registration 1") := by decide +kernel

end Wamp.Conformance.Texts
