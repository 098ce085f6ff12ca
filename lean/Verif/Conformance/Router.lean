import Verif.Spec.AsNew
import Verif.Spec.System
import Verif.Model.PathMatch
import Verif.Model.Acceptor
/-!
# The tests of `/repo` replayed on the model: broker and dealer

Not proofs but a check of the model: the assertions of `broker_test.go` and `dealer_test.go` evaluated on the model's functions.  Each
example names the Go test and the lines it replays.
-/
namespace Wamp.Conformance

/-- `NewSessionDetails(id, "realm", "authid", "anonymous", "", false, RouterRoles, nil)` -/
def peer (id : Nat) : SessionDetails :=
  newSessionDetails id (str "realm") (str "authid") (str "anonymous") [] false (some routerRoles) none

/-- What a test looks at: an error, nothing, a Boolean, or recipients and message types. -/
inductive Seen where
  | error | panic | nothing | bool (b : Bool) | sent (l : List (Nat × Nat))
  deriving DecidableEq

/-- Recipients and message types. -/
def kinds (l : List (Nat × Msg)) : Seen := .sent (l.map fun p => (p.1, p.2.type))

/-- The message a call sends first. -/
def first (l : List (Nat × Msg)) : Option Msg := l.head?.map fun p => p.2

/-! ### broker_test.go -/

def seenB : Res Broker.Out → Seen
  | .err => .error
  | .panic => .panic
  | .ok .unit => .nothing
  | .ok (.bool b) => .bool b
  | .ok o => kinds (System.brokerOut (.ok o))

/-- The calls of a test, on a new broker. -/
def broker (ops : List Broker.Op) : List Seen := (Broker.replies PathMatch.wildcardMatch Broker.init ops).map seenB

/-- The message sent first by the last of these calls. -/
def brokerLast (ops : List Broker.Op) : Option Msg :=
  ((Broker.replies PathMatch.wildcardMatch Broker.init ops).getLast?).bind fun r => first (System.brokerOut r)

def ack : GoMap := some [(str "acknowledge", .bool true)]
def args12 : GoSlice := some [.int .int 1, .int .int 2]
def alex : GoMap := some [(str "name", .str (str "alex"))]
def publishBar (s r : Nat) (o : GoMap) : Broker.Op := .publish s r o (str "foo.bar") args12 alex [] [1, 2]

/-- `TestBrokerAddRemoveSession` (broker_test.go:12-31) -/
example : broker [.remove 1 [], .add (peer 1), .remove 1 [], .remove 1 []] = [.error, .nothing, .nothing, .error] := by decide +kernel

/-- `TestBrokerPublish` (broker_test.go:33-91): PUBLISHED is 17, EVENT 36, SUBSCRIBED 33. -/
example : broker [.add (peer 1), publishBar 1 1 ack, .add (peer 2), .receive 2 (newSubscribe 2 none (str "foo.bar")),
      publishBar 1 3 ack, publishBar 1 4 (some []), publishBar 5 1 ack] =
    [.nothing, .sent [(1, 17)], .nothing, .sent [(2, 33)], .sent [(2, 36), (1, 17)], .sent [(2, 36)], .error] := by decide +kernel

/-- `TestBrokerSubscribeUnsubscribe` (broker_test.go:93-161): the subscription's ID is the one in SUBSCRIBED. -/
example :
    (match brokerLast [.add (peer 1), .receive 1 (newSubscribe 1 none (str "foo.bar"))] with
     | some (.subscribed 1 id) =>
       broker [.add (peer 1), .receive 1 (newSubscribe 1 none (str "foo.bar")), .add (peer 2),
         .publish 2 2 ack (str "foo.bar") args12 none [] [1], .receive 1 (newUnsubscribe 3 id),
         .receive 5 (newSubscribe 4 none (str "foo.bar")), .receive 5 (newUnsubscribe 5 id), .receive 1 (newUnsubscribe 3 5)]
     | _ => []) =
    [.nothing, .sent [(1, 33)], .nothing, .sent [(1, 36), (2, 17)], .sent [(1, 35)], .error, .error, .error] := by decide +kernel

/-- `testBrokerSubscriptionFlow` (broker_test.go:179-211) -/
def subscriptionFlow (matchType topic publishURI : String) : List Seen :=
  broker [.add (peer 1), .receive 1 (newSubscribe 1 (some [(str "match", .str (str matchType))]) (str topic)), .has (str topic),
    .add (peer 2), .publish 2 3 (some []) (str publishURI) (some [.str (str "abc")]) none [str topic] [1]]

/-- `TestBrokerPrefixSubscription` (broker_test.go:163-169) -/
example : subscriptionFlow "prefix" "foo.bar." "foo.bar.test" =
    [.nothing, .sent [(1, 33)], .bool true, .nothing, .sent [(1, 36)]] := by decide +kernel
/-- `TestBrokerWildcardSubscription` (broker_test.go:171-177) -/
example : subscriptionFlow "wildcard" "foo.bar*test" "foo.bar.alpha.test" =
    [.nothing, .sent [(1, 33)], .bool true, .nothing, .sent [(1, 36)]] := by decide +kernel

def detailsOf : Option Msg → GoMap
  | some (.event _ _ d _ _) => d
  | some (.invocation _ _ d _ _ _) => d
  | _ => none

/-- The calls of `TestBrokerDisclosePublisherDetails` up to the first publication (broker_test.go:213-235). -/
def disclosed (ops : List Broker.Op) : GoMap :=
  detailsOf (brokerLast ([.add (peer 1), .receive 1 (newSubscribe 1 none (str "foo.bar")), .add (peer 2)] ++ ops))
def publishTo (r : Nat) : Broker.Op := .publish 2 r ack (str "foo.bar") args12 none [] [1]

/-- `TestBrokerDisclosePublisherDetails`, disabled by default (broker_test.go:230-235) -/
example : disclosed [publishTo 2] = some [] := rfl
/-- … enabled (broker_test.go:237-245) -/
example : disclosed [publishTo 2, .disclose true, publishTo 3] =
    some [(str "publisher", .u64 2), (str "publisher_authid", .str (str "authid")),
      (str "publisher_authrole", .str (str "anonymous")), (str "topic", .str (str "foo.bar"))] := rfl
/-- … disabled (broker_test.go:247-253) -/
example : disclosed [publishTo 2, .disclose true, publishTo 3, .disclose false, publishTo 4] = some [] := rfl

/-! ### dealer_test.go -/

def seenD : Res Dealer.Out → Seen
  | .err => .error
  | .panic => .panic
  | .ok .unit => .nothing
  | .ok (.bool b) => .bool b
  | .ok o => kinds (System.dealerOut (.ok o))

def dealer (ops : List Dealer.Op) : List Seen := (Dealer.replies PathMatch.wildcardMatch Dealer.init ops).map seenD
def dealerLast (ops : List Dealer.Op) : Option Msg :=
  ((Dealer.replies PathMatch.wildcardMatch Dealer.init ops).getLast?).bind fun r => first (System.dealerOut r)

/-- A message handed to the dealer; the orders of map iteration play no part unless given. -/
def say (s : Nat) (m : Msg) : Dealer.Op := .receive s m [] 0
def abc : GoSlice := some [.str (str "abc")]

def isInvocation : Option Msg → Option Nat
  | some (.invocation r _ _ _ _ _) => some r
  | _ => none

def uriOf : Option Msg → Str
  | some (.error _ _ _ uri _ _) => uri
  | _ => []

/-- `TestDealerAddRemoveSession` (dealer_test.go:12-31) -/
example : dealer [.remove 1 [], .add (peer 1), .remove 1 [], .remove 1 []] = [.error, .nothing, .nothing, .error] := by decide +kernel

/-- The calls of `TestDealerRegisterUnregister` (dealer_test.go:33-124). The registration's ID and the invocation's request ID are
those the dealer returned. -/
def registerUnregister : List Dealer.Op :=
  let reg := newRegister 1 none (str "foo.bar")
  let regID := match dealerLast [.add (peer 1), say 1 reg] with
    | some (.registered _ g) => g
    | _ => 0
  let before : List Dealer.Op := [.add (peer 1), say 1 reg, .has (str "foo.bar"), say 1 (newRegister 2 none (str "foo.bar")),
    say 5 (newRegister 2 none (str "foo.bar")), .add (peer 2), say 2 (newCall 3 (some []) (str "foo.bar") abc none)]
  let inv := (isInvocation (dealerLast before)).getD 0
  before ++ [say 2 (newYield inv (some []) abc none), say 2 (newCall 3 (some []) (str "invalid") abc none),
    say 5 (newYield inv (some []) abc none), say 1 (newUnregister 1 regID), .has (str "foo.bar"), say 1 (newUnregister 1 regID)]

/-- `TestDealerRegisterUnregister`: REGISTERED is 65, ERROR 8, INVOCATION 68, RESULT 50, UNREGISTERED 67. -/
example : dealer registerUnregister =
    [.nothing, .sent [(1, 65)], .bool true, .sent [(1, 8)], .error, .nothing, .sent [(1, 68)],
     .sent [(2, 50)], .sent [(2, 8)], .error, .sent [(1, 67)], .bool false, .error] := by decide +kernel
/-- … `DuplicateProcedure` (dealer_test.go:55-66) -/
example : uriOf (dealerLast (registerUnregister.take 4)) = str "wamp.error.procedure_already_exists" := by decide +kernel

/-- The calls of `TestProgressiveCallResults` (dealer_test.go:126-173) -/
def progressiveResults : List Dealer.Op :=
  let before : List Dealer.Op := [.add (peer 1), .add (peer 2), say 1 (newRegister 1 none (str "foo.bar")),
    say 1 (newCall 2 (some [(str "receive_progress", .bool true)]) (str "foo.bar") (some []) none)]
  let inv := (isInvocation (dealerLast before)).getD 0
  before ++ List.replicate 10 (say 1 (newYield inv (some [(str "progress", .bool true)]) (some []) none)) ++
    [say 1 (newYield inv (some []) (some []) none)]

/-- Details of an INVOCATION or RESULT. -/
def flagOf (key : String) : Option Msg → Bool
  | some (.invocation _ _ d _ _ _) => d.flag (str key)
  | some (.result _ d _ _ _) => d.flag (str key)
  | _ => false
def requestOf : Option Msg → Nat
  | some (.invocation r ..) => r
  | some (.result r ..) => r
  | _ => 0

example : dealer progressiveResults =
    [.nothing, .nothing, .sent [(1, 65)], .sent [(1, 68)]] ++ List.replicate 11 (.sent [(1, 50)]) := by decide +kernel
example : flagOf "receive_progress" (dealerLast (progressiveResults.take 4)) = true := by decide +kernel
example : (List.range 10).all (fun i =>
    let m := dealerLast (progressiveResults.take (5 + i))
    requestOf m == 2 && flagOf "progress" m) = true := by decide +kernel
example : requestOf (dealerLast progressiveResults) = 2 ∧ flagOf "receive_progress" (dealerLast progressiveResults) = false := by
  decide +kernel

/-- The calls of `TestProgressiveCallInvocations` (dealer_test.go:175-218) -/
def progressiveCalls : List Dealer.Op :=
  [.add (peer 1), .add (peer 2), say 1 (newRegister 3 none (str "foo.bar"))] ++
    List.replicate 11 (say 1 (newCall 4 (some [(str "progress", .bool true)]) (str "foo.bar") (some []) none)) ++
    [say 1 (newCall 4 (some []) (str "foo.bar") (some []) none)]

example : dealer progressiveCalls = [.nothing, .nothing, .sent [(1, 65)]] ++ List.replicate 12 (.sent [(1, 68)]) := by decide +kernel
example : (List.range 11).all (fun i =>
    let m := dealerLast (progressiveCalls.take (4 + i))
    flagOf "progress" m && isInvocation m == isInvocation (dealerLast (progressiveCalls.take 4))) = true := by decide +kernel
example : flagOf "progress" (dealerLast progressiveCalls) = false := by decide +kernel

/-- `testDealerRegistrationAndCall` (dealer_test.go:236-276) -/
def registrationAndCall (matchType procedure callURI : String) : List Seen :=
  let before : List Dealer.Op := [.add (peer 1), say 1 (newRegister 1 (some [(str "match", .str (str matchType))]) (str procedure)),
    .has (str procedure), .add (peer 2), .receive 2 (newCall 3 (some []) (str callURI) abc none) [str procedure] 0]
  let inv := (isInvocation (dealerLast before)).getD 0
  dealer (before ++ [say 2 (newYield inv (some []) abc none)])

/-- `TestDealerPrefixRegistration` (dealer_test.go:220-226) -/
example : registrationAndCall "prefix" "foo.bar." "foo.bar.test" =
    [.nothing, .sent [(1, 65)], .bool true, .nothing, .sent [(1, 68)], .sent [(2, 50)]] := by decide +kernel
/-- `TestDealerWildcardRegistration` (dealer_test.go:228-234) -/
example : registrationAndCall "wildcard" "foo.bar*test" "foo.bar.alpha.test" =
    [.nothing, .sent [(1, 65)], .bool true, .nothing, .sent [(1, 68)], .sent [(2, 50)]] := by decide +kernel

/-- The calls of `TestDealerDiscloseCallerDetails` up to the first CALL (dealer_test.go:278-292), then `ops`. -/
def disclosedCaller (ops : List Dealer.Op) : GoMap :=
  detailsOf (dealerLast ([.add (peer 1), say 1 (newRegister 1 none (str "foo.bar")), .add (peer 2)] ++ ops))
def callBar (r : Nat) : Dealer.Op := say 2 (newCall r (some []) (str "foo.bar") abc none)

/-- `TestDealerDiscloseCallerDetails`, disabled by default (dealer_test.go:294-300) -/
example : disclosedCaller [callBar 3] = some [] := rfl
/-- … enabled (dealer_test.go:302-311) -/
example : disclosedCaller [callBar 3, .disclose true, callBar 4] =
    some [(str "caller", .u64 2), (str "caller_authid", .str (str "authid")), (str "caller_authrole", .str (str "anonymous")),
      (str "procedure", .str (str "foo.bar"))] := rfl
/-- … disabled (dealer_test.go:313-320) -/
example : disclosedCaller [callBar 3, .disclose true, callBar 4, .disclose false, callBar 4] = some [] := rfl

/-- `registerProcedures` of `TestDealerInvocationOptions` (dealer_test.go:333-341) after the three sessions have joined. -/
def shared (proc policy : String) (calls : List Dealer.Op) : List Seen :=
  dealer ([.add (peer 1), .add (peer 2), .add (peer 3),
    say 1 (newRegister 1 (some [(str "invoke", .str (str policy))]) (str proc)),
    say 2 (newRegister 2 (some [(str "invoke", .str (str policy))]) (str proc))] ++ calls)
def callOf (proc : String) (r rnd : Nat) : Dealer.Op := .receive 3 (newCall r none (str proc) none none) [] rnd
def joined2 : List Seen := [.nothing, .nothing, .nothing, .sent [(1, 65)], .sent [(2, 65)]]

/-- `First` (dealer_test.go:343-352) -/
example : shared "first.proc" "first" [callOf "first.proc" 20 0, callOf "first.proc" 21 0, callOf "first.proc" 22 0] =
    joined2 ++ [.sent [(1, 68)], .sent [(1, 68)], .sent [(1, 68)]] := by decide +kernel
/-- `Last` (dealer_test.go:354-363) -/
example : shared "last.proc" "last" [callOf "last.proc" 30 0, callOf "last.proc" 31 0, callOf "last.proc" 32 0] =
    joined2 ++ [.sent [(2, 68)], .sent [(2, 68)], .sent [(2, 68)]] := by decide +kernel
/-- `RegisterFirstAndThenLast` (dealer_test.go:365-374) -/
example : dealer [.add (peer 1), .add (peer 2), .add (peer 3),
      say 1 (newRegister 1 (some [(str "invoke", .str (str "first"))]) (str "io.xconn.test")),
      say 2 (newRegister 2 (some [(str "invoke", .str (str "last"))]) (str "io.xconn.test"))] =
    [.nothing, .nothing, .nothing, .sent [(1, 65)], .sent [(2, 8)]] := by decide +kernel
/-- `RoundRobin` (dealer_test.go:376-387) -/
example : shared "roundrobin.proc" "roundrobin" [callOf "roundrobin.proc" 10 0, callOf "roundrobin.proc" 11 0,
      callOf "roundrobin.proc" 12 0, callOf "roundrobin.proc" 13 0] =
    joined2 ++ [.sent [(1, 68)], .sent [(2, 68)], .sent [(1, 68)], .sent [(2, 68)]] := by decide +kernel
/-- `Random` (dealer_test.go:389-400): both callees are reached, for random numbers of either kind. -/
example : shared "random.proc" "random" [callOf "random.proc" 40 0, callOf "random.proc" 41 1] =
    joined2 ++ [.sent [(1, 68)], .sent [(2, 68)]] := by decide +kernel

end Wamp.Conformance
