import Verif.Spec.Foreign
import Verif.Spec.AsNew
/-!
# Other names for topics and procedures

The same calls and messages where every topic, procedure and pattern `t` is called `f t`.
-/
namespace Wamp.Uris

/-- Different names stay different. -/
def Distinct (f : Str → Str) : Prop := ∀ a b, f a = f b → a = b

/-- What matters for patterns stays as it is: which names begin with which, and which match which. -/
def Keeps (f : Str → Str) (w : Str → Str → Bool) : Prop :=
  (∀ p n, p <+: n ↔ f p <+: f n) ∧ ∀ n p, w (f n) (f p) = w n p

/-- The value under key `k`, if it is a text, replaced by the new name. -/
def under (f : Str → Str) (k : String) (d : Dict) : Dict :=
  d.map fun x => (x.1, if x.1 = str k then (match x.2 with | .str t => .str (f t) | v => v) else x.2)

/-- The message with the new names: of the topic or procedure it is about, also where the router discloses it. -/
def msg (f : Str → Str) : Msg → Msg
  | .publish q o t a k => .publish q o (f t) a k
  | .subscribe q o t => .subscribe q o (f t)
  | .register q o p => .register q o (f p)
  | .call q o p a k bin => .call q o (f p) a k bin
  | .event i n d a k => .event i n (d.map (under f "topic")) a k
  | .invocation i g d a k bin => .invocation i g (d.map (under f "procedure")) a k bin
  | m => m

/-- The same call on a broker. -/
def brokerOp (f : Str → Str) : Broker.Op → Broker.Op
  | .has t => .has (f t)
  | .receive s m => .receive s (msg f m)
  | .publish s q o t a k wo so => .publish s q o (f t) a k (wo.map f) so
  | op => op

/-- The same result of a call on a broker. -/
def brokerOut (f : Str → Str) : Broker.Out → Broker.Out
  | .msg m s => .msg (msg f m) s
  | .pub p => .pub ⟨p.event.map (msg f), p.recipients, p.ack.map fun x => (msg f x.1, x.2)⟩
  | o => o

/-- The same call on a dealer. -/
def dealerOp (f : Str → Str) : Dealer.Op → Dealer.Op
  | .has p => .has (f p)
  | .receive s m order rnd => .receive s (msg f m) (order.map f) rnd
  | op => op

/-- The same result of a call on a dealer. -/
def dealerOut (f : Str → Str) : Dealer.Out → Dealer.Out
  | .msg m s => .msg (msg f m) s
  | o => o

/-- The same move of router and clients. -/
def move (f : Str → Str) : System.Move → System.Move
  | .act (.send s data m) => .act (.send s data (msg f m))
  | .act (.route s wo so rnd) => .act (.route s (wo.map f) so rnd)
  | .inject s m => .inject s (msg f m)
  | v => v

/-- The option `match` asks for a pattern. -/
def pattern (o : GoMap) : Prop := o.text (str "match") = str "prefix" ∨ o.text (str "match") = str "wildcard"

/-- A message that subscribes or registers no pattern. -/
def exact : Msg → Prop
  | .subscribe _ o _ => ¬pattern o
  | .register _ o _ => ¬pattern o
  | _ => True

end Wamp.Uris
