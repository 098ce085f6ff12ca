import Verif.Spec.Foreign
import Verif.Spec.AsNew
/-!
# Other session IDs

The same calls and messages for sessions that have other IDs.
-/
namespace Wamp

/-- Every session gets another ID, no two the same: `new` gives the new ID, `old` the one it had. -/
structure Renaming where
  new : Nat → Nat
  old : Nat → Nat
  old_new : ∀ s, old (new s) = s
  new_old : ∀ s, new (old s) = s

/-- The value under key `k`, if it is a session ID, replaced by the new one. -/
def Renaming.under (r : Renaming) (k : String) (d : Dict) : Dict :=
  d.map fun x => (x.1, if x.1 = str k then (match x.2 with | .uint .u64 n => .u64 (r.new n) | v => v) else x.2)

/-- The message with the new ID of the publisher in an EVENT, and of the caller in an INVOCATION.  No other message of a broker or dealer
contains session IDs. -/
def Renaming.msg (r : Renaming) : Msg → Msg
  | .event i n d a k => .event i n (d.map (r.under "publisher")) a k
  | .invocation i g d a k b => .invocation i g (d.map (r.under "caller")) a k b
  | m => m

/-- The details of the session with its new ID. -/
def Renaming.session (r : Renaming) (d : SessionDetails) : SessionDetails := { d with id := r.new d.id }

/-- The same call on a broker. -/
def Renaming.brokerOp (r : Renaming) : Broker.Op → Broker.Op
  | .add d => .add (r.session d)
  | .remove s o => .remove (r.new s) o
  | .receive s m => .receive (r.new s) (r.msg m)
  | .publish s q o t a k wo so => .publish (r.new s) q o t a k wo (so.map r.new)
  | op => op

/-- The same result of a call on a broker. -/
def Renaming.brokerOut (r : Renaming) : Broker.Out → Broker.Out
  | .msg m s => .msg (r.msg m) (r.new s)
  | .pub p => .pub ⟨p.event.map r.msg, p.recipients.map r.new, p.ack.map fun x => (r.msg x.1, r.new x.2)⟩
  | o => o

/-- The same call on a dealer. -/
def Renaming.dealerOp (r : Renaming) : Dealer.Op → Dealer.Op
  | .add d => .add (r.session d)
  | .remove s o => .remove (r.new s) o
  | .receive s m order rnd => .receive (r.new s) (r.msg m) order rnd
  | op => op

/-- The same result of a call on a dealer. -/
def Renaming.dealerOut (r : Renaming) : Dealer.Out → Dealer.Out
  | .msg m s => .msg (r.msg m) (r.new s)
  | o => o

/-- The same move of router and clients. -/
def Renaming.move (r : Renaming) : System.Move → System.Move
  | .act (.join d) => .act (.join (r.session d))
  | .act (.leave s o o') => .act (.leave (r.new s) o o')
  | .act (.disclose p c) => .act (.disclose p c)
  | .act (.send s data m) => .act (.send (r.new s) data (r.msg m))
  | .act (.route s wo so rnd) => .act (.route (r.new s) wo (so.map r.new) rnd)
  | .act (.deliver s) => .act (.deliver (r.new s))
  | .inject s m => .inject (r.new s) (r.msg m)

end Wamp
