import Verif.Spec.AsNew
/-!
# A broker with and without a listener
-/
namespace Wamp.Broker

/-- The call is one of listener `s`: it comes or goes, subscribes to one of the topics `T`, or sends anything else to the broker that is not a
publication. -/
def listens (s : Nat) (T : List Str) : Op → Bool
  | .add d => d.id == s
  | .remove x _ => x == s
  | .receive x (.subscribe _ _ t) => x == s && T.contains t
  | .receive x _ => x == s
  | _ => false

/-- The call is one of the others, and not one by which session `a` unsubscribes or leaves. -/
def stays (s a : Nat) : Op → Bool
  | .add d => d.id != s
  | .remove x _ => x != s && x != a
  | .receive x (.unsubscribe _ _) => x != s && x != a
  | .receive x _ => x != s
  | .publish x _ _ _ _ _ _ _ => x != s
  | _ => true

/-- The results of those calls that are not the listener's, when all the calls are made one after the other. -/
def repliesToOthers (s : Nat) (T : List Str) (w : Str → Str → Bool) (b : State) : List Op → List (Res Out)
  | [] => []
  | op :: ops => (if listens s T op then [] else [(step w b op).2]) ++ repliesToOthers s T w (step w b op).1 ops

/-- The result without session `s` among the recipients of a publication. -/
def unheard (s : Nat) : Res Out → Res Out
  | .ok (.pub p) => .ok (.pub { p with recipients := p.recipients.filter (· ≠ s) })
  | r => r

end Wamp.Broker
