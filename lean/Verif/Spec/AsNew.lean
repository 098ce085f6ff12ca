import Verif.Spec.Broker
import Verif.Spec.Dealer
/-!
# Brokers that behave alike up to the IDs they hand out
-/
namespace Wamp.Broker

/-- The results of calls made one after the other. -/
def replies (w : Str → Str → Bool) (b : State) : List Op → List (Res Out)
  | [] => []
  | op :: ops => (step w b op).2 :: replies w (step w b op).1 ops

/-- The same call with subscription IDs that are renamed by `f` (the order in which a removal visits subscriptions is given by their
IDs). -/
def renameOp (f : Nat → Nat) : Op → Op
  | .receive s (.unsubscribe r i) => .receive s (.unsubscribe r (f i))
  | .remove s order => .remove s (order.map f)
  | op => op

/-- The same message with subscription and publication IDs that are renamed by `f`. -/
def renameMsg (f : Nat → Nat) : Msg → Msg
  | .subscribed r i => .subscribed r (f i)
  | .published r n => .published r (f n)
  | .event i n d a k => .event (f i) (f n) d a k
  | m => m

/-- The same result with IDs that are renamed by `f`. -/
def renameOut (f : Nat → Nat) : Out → Out
  | .msg m s => .msg (renameMsg f m) s
  | .pub p => .pub ⟨p.event.map (renameMsg f), p.recipients, p.ack.map fun x => (renameMsg f x.1, x.2)⟩
  | o => o

end Wamp.Broker

namespace Wamp.Dealer

/-- The results of calls made one after the other; a panic is the last one. -/
def replies (w : Str → Str → Bool) (b : State) : List Op → List (Res Out)
  | [] => []
  | op :: ops => (step w b op).2 :: match (step w b op).2 with | .panic => [] | _ => replies w (step w b op).1 ops

/-- The same call with registration and invocation IDs that are renamed by `f` (the order in which a removal visits registrations is given
by their IDs). -/
def renameOp (f : Nat → Nat) : Op → Op
  | .receive s (.unregister r i) order rnd => .receive s (.unregister r (f i)) order rnd
  | .receive s (.yield i o a k bin) order rnd => .receive s (.yield (f i) o a k bin) order rnd
  | .receive s (.error t i d u a k) order rnd => .receive s (.error t (f i) d u a k) order rnd
  | .remove s order => .remove s (order.map f)
  | op => op

/-- The same message with registration and invocation IDs that are renamed by `f`. -/
def renameMsg (f : Nat → Nat) : Msg → Msg
  | .registered r i => .registered r (f i)
  | .invocation i g d a k bin => .invocation (f i) (f g) d a k bin
  | m => m

/-- The same result with IDs that are renamed by `f`. -/
def renameOut (f : Nat → Nat) : Out → Out
  | .msg m s => .msg (renameMsg f m) s
  | o => o

/-- A call that does not refer to calls of the past: IDs of invocations are at least 1, and a progressive CALL does not continue a CALL
in `h`. -/
def forward (h : List Event) : Op → Prop
  | .receive s (.call r o _ _ _ _) _ _ => o.flag (str "progress") = true → ∀ e ∈ h, called s r e = false
  | .receive _ (.yield i _ _ _ _) _ _ => 1 ≤ i
  | .receive _ (.error _ i _ _ _ _) _ _ => 1 ≤ i
  | _ => True

/-- After the history `h`, a dealer in state `b` answers these calls as a new one does, except for IDs larger by `c` and for its disclosure
setting. -/
def likeNew (w : Str → Str → Bool) (h : List Event) (b : State) (c : Nat) (ops : List Op) : Prop :=
  replies w b (ops.map (renameOp (· + c))) = (replies w (step w init (.disclose (disclosed h))).1 ops).map (Res.map (renameOut (· + c)))

end Wamp.Dealer
