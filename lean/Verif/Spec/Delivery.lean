import Verif.Spec.System
/-!
# Where the messages a client gets come from

The system of Spec/System, with a record of what every client has taken from its link.
-/
namespace Wamp.System
open Wamp

/-- The system, and the messages each client has taken so far (oldest first). -/
structure Log where
  sys : Sys
  got : Nat → List Msg

/-- Nothing has happened. -/
def Log.new : Log := ⟨Sys.new, fun _ => []⟩

/-- One action. -/
def Log.act (w : Str → Str → Bool) (l : Log) (a : Action) : Option Log :=
  (l.sys.act w a).map fun y =>
    ⟨y, match a with
        | .deliver s => upd l.got s (l.got s ++ (l.sys.down s).take 1)
        | _ => l.got⟩

/-- Every state that some sequence of actions leads to. -/
inductive Log.Reach (w : Str → Str → Bool) : Log → Prop where
  | new : Log.Reach w Log.new
  | act {l l' : Log} (a : Action) : Log.Reach w l → l.act w a = some l' → Log.Reach w l'

/-- All messages for client `s` (oldest first): those it has taken and those under way. -/
def Log.inbox (l : Log) (s : Nat) : List Msg := l.got s ++ l.sys.down s

/-- All messages client `s` has sent, oldest first. -/
def Log.outbox (l : Log) (s : Nat) : List Msg := (l.sys.sent s).reverse

/-- Who asks for `t` (as topic or procedure) may be given `u`: the same, or `t` is a prefix of `u` or a pattern that matches it. -/
def covers (w : Str → Str → Bool) (t u : Str) : Prop := t = u ∨ t <+: u ∨ w u t = true

/-- Args and kwargs are the same; or the binary payload is, when the message has one. -/
def sameContent (a : GoSlice) (k : GoMap) (b : Bin) (a' : GoSlice) (k' : GoMap) (b' : Bin) : Prop :=
  (a' = a ∧ k' = k ∧ b' = Bin.none) ∨ (b.binary = true ∧ a' = none ∧ k' = none ∧ b' = b)

/-- Client `s` has called with request ID `r`. -/
def hasCalled (sent : Nat → List Msg) (s r : Nat) : Prop := ∃ o p a k b, .call r o p a k b ∈ sent s

/-- Message `out` for `s` is what message `m` of client `p` is meant to lead to; `sent`: what each client has sent. -/
def Caused (w : Str → Str → Bool) (sent : Nat → List Msg) (s p : Nat) (m out : Msg) : Prop :=
  match out with
  | .event _ _ _ a k => ∃ r o t, m = .publish r o t a k ∧ ∃ r' o' t', .subscribe r' o' t' ∈ sent s ∧ covers w t' t
  | .subscribed r _ => p = s ∧ ∃ o t, m = .subscribe r o t
  | .unsubscribed r => p = s ∧ ∃ i, m = .unsubscribe r i
  | .published r _ => p = s ∧ ∃ o t a k, m = .publish r o t a k ∧ o.flag (str "acknowledge") = true
  | .registered r _ => p = s ∧ ∃ o t, m = .register r o t
  | .unregistered r => p = s ∧ ∃ g, m = .unregister r g
  | .invocation _ _ _ a k b => ∃ r o t a0 k0 b0, m = .call r o t a0 k0 b0 ∧ sameContent a0 k0 b0 a k b ∧
      ∃ r' o' t', .register r' o' t' ∈ sent s ∧ covers w t' t
  | .result r d a k b => (∃ i o a0 k0 b0, m = .yield i o a0 k0 b0 ∧ sameContent a0 k0 b0 a k b ∧
      (d.flag (str "progress") = true → o.flag (str "progress") = true)) ∧ hasCalled sent s r
  | .error 64 r _ _ _ _ => p = s ∧ ∃ o t, m = .register r o t
  | .error 48 r d u a k => (p = s ∧ ∃ o t a0 k0 b0, m = .call r o t a0 k0 b0) ∨
      ((∃ i d0, m = .error 68 i d0 u a k ∧ d = some (d0.getD [])) ∧ hasCalled sent s r)
  | _ => False

/-- The messages `received` by `s` have their causes, one each, among the messages sent; those of the same client in the order in which
that client sent them.  (A list of senders, messages sent, messages received.) -/
def Traced (w : Str → Str → Bool) (l : Log) (s : Nat) (received : List Msg) : Prop :=
  ∃ src : List (Nat × Msg × Msg), src.map (fun q => q.2.2) = received ∧
    (∀ q ∈ src, Caused w l.sys.sent s q.1 q.2.1 q.2.2) ∧
    ∀ p, ((src.filter fun q => q.1 = p).map fun q => q.2.1).Sublist (l.outbox p)

/-- EVENT. -/
def isEvent : Msg → Bool
  | .event .. => true
  | _ => false

end Wamp.System
