import Verif.Spec.System
/-!
# A router with and without a client that only listens
-/
namespace Wamp.System

/-- What a client sends that only listens to topics among `T`: SUBSCRIBE for these topics, UNSUBSCRIBE, GOODBYE and what no router heeds. -/
def onlooks (T : List Str) : Msg → Bool
  | .subscribe _ _ t => T.contains t
  | .publish .. | .call .. | .yield .. | .register .. | .unregister .. | .error .. => false
  | _ => true

/-- The action is one of client `s`, which only listens: it joins, is removed, sends, or its messages arrive. -/
def ofOnlooker (s : Nat) (T : List Str) : Action → Bool
  | .join d => d.id == s
  | .leave c _ _ => c == s
  | .send c _ m => c == s && onlooks T m
  | .route c _ _ _ => c == s
  | .deliver c => c == s
  | .disclose _ _ => false

/-- The message is an UNSUBSCRIBE. -/
def givesUp : Msg → Bool
  | .unsubscribe .. => true
  | _ => false

/-- The action is one of the others, and client `a` neither leaves nor unsubscribes. -/
def remains (s a : Nat) : Action → Bool
  | .join d => d.id != s
  | .leave c _ _ => c != s && c != a
  | .send c _ m => c != s && !(c == a && givesUp m)
  | .route c _ _ _ => c != s
  | .deliver c => c != s
  | .disclose _ _ => true

end Wamp.System
