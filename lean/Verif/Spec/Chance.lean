import Verif.Spec.Broker
import Verif.Spec.Dealer
/-!
# What is left to chance

Go walks through a map in an order of its own choice, and the dealer draws random numbers.  The calls below take these choices as arguments; two calls are the same if they
differ in nothing else.
-/
namespace Wamp.Broker

/-- The same call. -/
def Op.same : Op → Op → Prop
  | .remove s _, .remove s' _ => s = s'
  | .publish s q o t a k _ _, .publish s' q' o' t' a' k' _ _ => s = s' ∧ q = q' ∧ o = o' ∧ t = t' ∧ a = a' ∧ k = k'
  | x, y => x = y

/-- The same answer; the recipients of an EVENT may come in another order. -/
def sameAnswer : Res Out → Res Out → Prop
  | .ok (.pub p), .ok (.pub q) => p.event = q.event ∧ p.ack = q.ack ∧ p.recipients.Perm q.recipients
  | x, y => x = y

/-- The same calls. -/
def sameCalls : List Event → List Event → Prop
  | [], [] => True
  | e :: h, e' :: h' => e.op.same e'.op ∧ sameCalls h h'
  | _, _ => False

/-- The same answers. -/
def sameAnswers : List Event → List Event → Prop
  | [], [] => True
  | e :: h, e' :: h' => sameAnswer e.res e'.res ∧ sameAnswers h h'
  | _, _ => False

/-- No published topic matches two different patterns that are subscribed to with the policy "wildcard". -/
def Decided (w : Str → Str → Bool) (h : List Event) : Prop :=
  ∀ e ∈ h, ∀ s q o u a k wo so, e.op = .publish s q o u a k wo so →
    ∀ e1 ∈ h, ∀ s1 q1 o1 p1, e1.op = .receive s1 (.subscribe q1 o1 p1) → o1.text (str "match") = str "wildcard" →
    ∀ e2 ∈ h, ∀ s2 q2 o2 p2, e2.op = .receive s2 (.subscribe q2 o2 p2) → o2.text (str "match") = str "wildcard" →
    w u p1 = true → w u p2 = true → p1 = p2

end Wamp.Broker

namespace Wamp.Dealer

/-- The same call. -/
def Op.same : Op → Op → Prop
  | .remove s _, .remove s' _ => s = s'
  | .receive s m _ _, .receive s' m' _ _ => s = s' ∧ m = m'
  | x, y => x = y

/-- The same calls. -/
def sameCalls : List Event → List Event → Prop
  | [], [] => True
  | e :: h, e' :: h' => e.op.same e'.op ∧ sameCalls h h'
  | _, _ => False

/-- Nobody registers with the policy "random", and no called procedure matches two different patterns that are registered with the policy "wildcard". -/
def Decided (w : Str → Str → Bool) (h : List Event) : Prop :=
  (∀ e ∈ h, ∀ s q o p order rnd, e.op = .receive s (.register q o p) order rnd → o.text (str "invoke") ≠ str "random") ∧
  ∀ e ∈ h, ∀ s q o u a k bin order rnd, e.op = .receive s (.call q o u a k bin) order rnd →
    ∀ e1 ∈ h, ∀ s1 q1 o1 p1 order1 rnd1, e1.op = .receive s1 (.register q1 o1 p1) order1 rnd1 → o1.text (str "match") = str "wildcard" →
    ∀ e2 ∈ h, ∀ s2 q2 o2 p2 order2 rnd2, e2.op = .receive s2 (.register q2 o2 p2) order2 rnd2 → o2.text (str "match") = str "wildcard" →
    w u p1 = true → w u p2 = true → p1 = p2

end Wamp.Dealer
