import Verif.Model.Broker
import Verif.Model.Dealer
/-!
# The texts of the errors that brokers and dealers return

`brokerError` and `dealerError` give the text of the error a call returns, `none` if it returns none (or panics).
-/
namespace Wamp.RouterText

/-- `%d` -/
def dec (n : Nat) : Str := str (toString n)

/-- `%b` -/
def bits (n : Nat) : Str := str (String.ofList (Nat.toDigits 2 n))

/-- `%T` of a message (the `type ... struct` in each messages/*.go). -/
def typeName : Msg → Str
  | .hello .. => str "*messages.Hello"
  | .welcome .. => str "*messages.Welcome"
  | .abort .. => str "*messages.Abort"
  | .challenge .. => str "*messages.Challenge"
  | .authenticate .. => str "*messages.Authenticate"
  | .goodbye .. => str "*messages.GoodBye"
  | .error .. => str "*messages.Error"
  | .publish .. => str "*messages.Publish"
  | .published .. => str "*messages.Published"
  | .subscribe .. => str "*messages.Subscribe"
  | .subscribed .. => str "*messages.Subscribed"
  | .unsubscribe .. => str "*messages.Unsubscribe"
  | .unsubscribed .. => str "*messages.Unsubscribed"
  | .event .. => str "*messages.Event"
  | .call .. => str "*messages.Call"
  | .cancel .. => str "*messages.Cancel"
  | .result .. => str "*messages.Result"
  | .register .. => str "*messages.Register"
  | .registered .. => str "*messages.Registered"
  | .unregister .. => str "*messages.Unregister"
  | .unregistered .. => str "*messages.Unregistered"
  | .invocation .. => str "*messages.Invocation"
  | .interrupt .. => str "*messages.Interrupt"
  | .yield .. => str "*messages.Yield"

open Wamp.Broker in
/-- The errors of `Broker` -/
def brokerError (b : Broker.State) : Broker.Op → Option Str
  | .add d =>                                                            -- broker.go:44-47
    if (b.bySession d.id).isSome then some (str "broker: cannot add session " ++ bits d.id ++ str ", it already exists") else none
  | .remove s _ =>                                                       -- broker.go:58-61
    match b.bySession s with
    | none => some (str "broker: cannot remove session " ++ bits s ++ str ", it doesn't exist")
    | some _ => none
  | .has _ => none
  | .disclose _ => none
  | .receive s (.subscribe ..) =>                                        -- broker.go:108-111
    match b.bySession s with
    | none => some (str "broker: cannot subscribe, session " ++ dec s ++ str " doesn't exist")
    | some _ => none
  | .receive s (.unsubscribe _ i) =>                                     -- broker.go:144-153
    match b.bySession s with
    | none => some (str "broker: cannot unsubscribe, session " ++ dec s ++ str " doesn't exist")
    | some m =>
      match m.get i with
      | none => some (str "broker: cannot unsubscribe non-existent subscription " ++ dec i)
      | some _ => none
  | .receive _ (.error ..) => some (str "broker: error handling is not implemented yet")        -- broker.go:172
  | .receive _ m => some (str "broker: received unexpected message of type " ++ typeName m)     -- broker.go:174
  | .publish s _ _ _ _ _ _ _ =>                                          -- broker.go:182-185
    match b.bySession s with
    | none => some (str "broker: cannot publish, session " ++ dec s ++ str " doesn't exist")
    | some _ => none

open Wamp.Dealer in
/-- The errors of `Dealer` -/
def dealerError (w : Str → Str → Bool) (b : Dealer.State) : Dealer.Op → Option Str
  | .add d =>                                                            -- dealer.go:93-96
    if (b.sessions d.id).isSome then some (str "cannot attach an already attached client " ++ dec d.id) else none
  | .remove s _ =>                                                       -- dealer.go:107-110
    match b.sessions s with
    | none => some (str "cannot remove client with id " ++ dec s ++ str " not attached")
    | some _ => none
  | .has _ => none
  | .disclose _ => none
  | .receive s (.call _ _ p _ _ _) order rnd =>                          -- dealer.go:171-218, 245-257
    match lookup w order b p with
    | none => none
    | some a =>
      if (b.heap a).registrants.isEmpty then none
      else
        match pick (b.heap a) rnd with
        | .ok (callee, _) =>
          if b.details && (b.sessions s).isNone then none
          else
            match b.sessions callee with
            | none => some (str "call: callee " ++ dec callee ++ str " gone before sending invocation")
            | some _ => none
        | _ => none
  | .receive s (.yield i _ _ _ _) _ _ =>                                 -- dealer.go:269-286
    match b.pending.get i with
    | none => some (str "yield: not pending calls for session " ++ dec s)
    | some p =>
      match b.sessions p.callerID with
      | none => some (str "yield: caller " ++ dec p.callerID ++ str " gone before receiving result")
      | some _ => none
  | .receive s (.register ..) _ _ =>                                     -- dealer.go:297-300
    match b.bySession s with
    | none => some (str "cannot register procedure for non-existent session " ++ dec s)
    | some _ => none
  | .receive s (.unregister _ i) _ _ =>                                  -- dealer.go:343-347
    match b.bySession s with
    | none => some (str "unregister: session " ++ dec s ++ str " has no registration " ++ dec i)
    | some m => if m.isEmpty then some (str "unregister: session " ++ dec s ++ str " has no registration " ++ dec i) else none
  | .receive _ (.error t i _ _ _ _) _ _ =>                               -- dealer.go:367-374
    if t ≠ 68 then some (str "dealer: only expected to receive error in response to invocation")
    else
      match b.pending.get i with
      | none => some (str "dealer: no pending invocation for " ++ dec i)
      | some _ => none
  | .receive _ m _ _ => some (str "dealer: received unexpected message of type " ++ typeName m) -- dealer.go:382

end Wamp.RouterText
