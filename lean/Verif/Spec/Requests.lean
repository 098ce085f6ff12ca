import Verif.Spec.Foreign
import Verif.Spec.AsNew
/-!
# Other request IDs

The same calls and messages where session `s` uses request ID `f s q` instead of `q`.
-/
namespace Wamp.Requests

/-- Different requests of a session keep different IDs. -/
def Distinct (f : Nat → Nat → Nat) : Prop := ∀ s a b, f s a = f s b → a = b

/-- A message to or from a session, with the new ID of the session's request.  The ID in INVOCATION, YIELD and the ERROR that answers an
INVOCATION is chosen by the dealer. -/
def msg (g : Nat → Nat) : Msg → Msg
  | .publish q o t a k => .publish (g q) o t a k
  | .published q n => .published (g q) n
  | .subscribe q o t => .subscribe (g q) o t
  | .subscribed q i => .subscribed (g q) i
  | .unsubscribe q i => .unsubscribe (g q) i
  | .unsubscribed q => .unsubscribed (g q)
  | .register q o p => .register (g q) o p
  | .registered q i => .registered (g q) i
  | .unregister q i => .unregister (g q) i
  | .unregistered q => .unregistered (g q)
  | .call q o p a k bin => .call (g q) o p a k bin
  | .cancel q o => .cancel (g q) o
  | .result q d a k bin => .result (g q) d a k bin
  | .error t q d u a k => .error t (if t = 68 then q else g q) d u a k
  | m => m

/-- The same call on a broker. -/
def brokerOp (f : Nat → Nat → Nat) : Broker.Op → Broker.Op
  | .receive s m => .receive s (msg (f s) m)
  | .publish s q o t a k wo so => .publish s (f s q) o t a k wo so
  | op => op

/-- The same result of a call on a broker. -/
def brokerOut (f : Nat → Nat → Nat) : Broker.Out → Broker.Out
  | .msg m s => .msg (msg (f s) m) s
  | .pub p => .pub ⟨p.event, p.recipients, p.ack.map fun x => (msg (f x.2) x.1, x.2)⟩
  | o => o

/-- The same call on a dealer. -/
def dealerOp (f : Nat → Nat → Nat) : Dealer.Op → Dealer.Op
  | .receive s m order rnd => .receive s (msg (f s) m) order rnd
  | op => op

/-- The same result of a call on a dealer. -/
def dealerOut (f : Nat → Nat → Nat) : Dealer.Out → Dealer.Out
  | .msg m s => .msg (msg (f s) m) s
  | o => o

/-- The same call on a client's session. -/
def sessionOp (g : Nat → Nat) : Session.Op → Session.Op
  | .send data m => .send data (msg g m)
  | .recv m => .recv (msg g m)

/-- Which of the calls on a client's session, made one after the other, succeed. -/
def accepted (s : Session.State) : List Session.Op → List Bool
  | [] => []
  | op :: ops => (op.prog.run s).2 :: accepted (op.prog.run s).1 ops

/-- The same move of router and clients. -/
def move (f : Nat → Nat → Nat) : System.Move → System.Move
  | .act (.send s data m) => .act (.send s data (msg (f s) m))
  | .inject s m => .inject s (msg (f s) m)
  | v => v

end Wamp.Requests
