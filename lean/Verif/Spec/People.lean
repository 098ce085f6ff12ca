import Verif.Spec.Foreign
import Verif.Spec.AsNew
/-!
# Other people

The same calls and messages for sessions of other people: with other auth IDs and roles, on other realms, logged in in other ways.
-/
namespace Wamp

/-- What is different: `authID` and `authRole` give the new auth ID and auth role for the ones a session had.  Everything else about a session but
its ID and whether its serializer is static may be anything. -/
structure People where
  authID : Str → Str
  authRole : Str → Str
  realm : SessionDetails → Str
  authMethod : SessionDetails → Str
  roles : SessionDetails → GoMap
  authExtra : SessionDetails → GoMap

/-- The session, now of somebody else. -/
def People.session (c : People) (d : SessionDetails) : SessionDetails :=
  ⟨d.id, c.realm d, c.authID d.authID, c.authRole d.authRole, c.authMethod d, d.static, c.roles d, c.authExtra d⟩

/-- The text under key `k` replaced by the new one. -/
def People.under (k : String) (f : Str → Str) (d : Dict) : Dict :=
  d.map fun x => (x.1, if x.1 = str k then (match x.2 with | .str t => .str (f t) | v => v) else x.2)

/-- A message of the router with the new auth ID and role of the publisher in an EVENT, and of the caller in an INVOCATION.  No other message
contains them. -/
def People.msg (c : People) : Msg → Msg
  | .event i n d a k => .event i n (d.map fun d => under "publisher_authid" c.authID (under "publisher_authrole" c.authRole d)) a k
  | .invocation i g d a k b => .invocation i g (d.map fun d => under "caller_authid" c.authID (under "caller_authrole" c.authRole d)) a k b
  | m => m

/-- The same call on a broker: only `AddSession` tells it who a session belongs to. -/
def People.brokerOp (c : People) : Broker.Op → Broker.Op
  | .add d => .add (c.session d)
  | op => op

/-- The same result of a call on a broker. -/
def People.brokerOut (c : People) : Broker.Out → Broker.Out
  | .pub p => .pub ⟨p.event.map c.msg, p.recipients, p.ack⟩
  | o => o

/-- The same call on a dealer. -/
def People.dealerOp (c : People) : Dealer.Op → Dealer.Op
  | .add d => .add (c.session d)
  | op => op

/-- The same result of a call on a dealer. -/
def People.dealerOut (c : People) : Dealer.Out → Dealer.Out
  | .msg m s => .msg (c.msg m) s
  | o => o

/-- The same move of router and clients. -/
def People.move (c : People) : System.Move → System.Move
  | .act (.join d) => .act (.join (c.session d))
  | v => v

end Wamp
