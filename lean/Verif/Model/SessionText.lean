import Verif.Model.Session
import Verif.Model.ErrorText
import Verif.Model.RouterText
/-!
# The texts of the errors that a client session returns

`sendError`, `recvError` and `receiveError` give the text of the error a call returns when no other call runs at the same time, `none` if it
returns none (or panics).
-/
namespace Wamp.SessionText
open Wamp.RouterText Wamp.Session

/-- The error of `SendMessage` (session.go:49-116); `cause` is the text of the serializer's error, if that is what `data` is. -/
def sendError (data : Res Str) (cause : Str) (s : State) (m : Msg) : Option Str :=
  match data with
  | .err => some (str "failed to serialize message: " ++ cause)                                          -- session.go:50-53
  | .panic => none
  | .ok _ =>
    match m with
    | .call .. => none
    | .yield .. => none
    | .register .. => none
    | .unregister .. => none
    | .publish .. => none
    | .subscribe .. => none
    | .unsubscribe _ g =>                                                                                -- session.go:94-98
      match s .subscriptions g with
      | none => some (str "unsubscribe request for non existent subscription " ++ dec g)
      | some _ => none
    | .error t _ _ _ _ _ => if t ≠ 68 then some (str "send only supported for invocation error") else none  -- session.go:105-107
    | .goodbye .. => none
    | _ => some (str "send not supported for message of type " ++ typeName m)                            -- session.go:114

/-- The error for an ERROR whose request is not outstanding, by table (session.go:219, 226, 233, 240, 247, 254). -/
def errorText : Tab → Str
  | .call => str "received ERROR for invalid call request"
  | .register => str "received ERROR for invalid register request"
  | .unregister => str "received ERROR for invalid unregister request"
  | .subscribe => str "received ERROR for invalid subscribe request"
  | .unsubscribe => str "received ERROR for invalid unsubscribe request"
  | .publish => str "received ERROR for invalid publish request"
  | _ => []

/-- The error of `ReceiveMessage` (session.go:127-268). -/
def recvError (s : State) (m : Msg) : Option Str :=
  match m with
  | .result r _ _ _ _ => if (s .call r).isSome then none else some (str "received RESULT for invalid requestID")            -- :131-134
  | .registered r _ => if (s .register r).isSome then none else some (str "received REGISTERED for invalid requestID")      -- :144-147
  | .unregistered r =>                                                                                                      -- :153-161
    match s .unregister r with
    | none => some (str "received UNREGISTERED for invalid requestID")
    | some g => if (s .registrations g).isSome then none else some (str "received UNREGISTERED for invalid registrationID")
  | .invocation _ g _ _ _ _ =>                                                                                              -- :166-169
    if (s .registrations g).isSome then none else some (str "received INVOCATION for invalid registrationID")
  | .published r _ => if (s .publish r).isSome then none else some (str "received PUBLISHED for invalid requestID")         -- :176-179
  | .subscribed r _ => if (s .subscribe r).isSome then none else some (str "received SUBSCRIBED for invalid requestID")     -- :184-187
  | .unsubscribed r =>                                                                                                      -- :194-202
    match s .unsubscribe r with
    | none => some (str "received UNSUBSCRIBED for invalid requestID")
    | some g => if (s .subscriptions g).isSome then none else some (str "received UNSUBSCRIBED for invalid subscriptionID " ++ dec g)
  | .event g _ _ _ _ => if (s .subscriptions g).isSome then none else some (str "received EVENT for invalid subscriptionID") -- :207-210
  | .error t r _ _ _ _ =>                                                                                                   -- :215-260
    match errorTab t with
    | none => some (str "unknown error message type " ++ typeName m)
    | some tab => if (s tab r).isSome then none else some (errorText tab)
  | .goodbye .. => none
  | .abort .. => none
  | _ => some (str "unknown message type " ++ typeName m)                                                                   -- :266

/-- The error of `Receive` (session.go:118-125), from what `Deserialize` returns. -/
def receiveError (s : State) : ErrorText.TRes Msg → Option Str
  | .err t => some (str "failed to deserialize message: " ++ t)
  | .ok m => recvError s m
  | .panic => none

end Wamp.SessionText
