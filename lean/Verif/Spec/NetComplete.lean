import Verif.Spec.Net
import Verif.Spec.Complete
/-!
# Byte streams: what is finished
-/
namespace Wamp.Net
open Wamp Wamp.System

/-- No bytes are under way to client `s`, and it has read all that have arrived. -/
def Net.ReadAll (n : Net) (s : Nat) : Prop := n.downBuf s = [] ∧ n.downWay s = []

/-- No bytes of client `s` are under way, and the router has read all that have arrived. -/
def Net.TakenAll (n : Net) (s : Nat) : Prop := n.upBuf s = [] ∧ n.upWay s = []

/-- Nothing is under way. -/
def Net.Idle (n : Net) : Prop := ∀ s, n.TakenAll s ∧ n.ReadAll s

/-- Every INVOCATION that a client has read, some client has answered finally. -/
def Net.Served (n : Net) : Prop := ∀ c i, (∃ m ∈ n.got c, isInvocation i m) → ∃ p, ∃ m ∈ n.core.sent p, endsInvocation i m

/-- If client `s` sends `m` in this step and `m` answers an invocation, the client has read the INVOCATION. -/
def politeStep (n n' : Net) : Prop :=
  ∀ s m, n'.core.sent s = m :: n.core.sent s → ∀ i, answersInvocation i m → ∃ m' ∈ n.got s, isInvocation i m'

/-- Every state that some sequence of polite steps leads to. -/
inductive Polite (w : Str → Str → Bool) (c : Nat → Codec) (Fit : Nat → Msg → Prop) : Net → Prop
  | new : Polite w c Fit Net.new
  | step {n n' : Net} : Polite w c Fit n → politeStep n n' → Step w c Fit n n' → Polite w c Fit n'

/-- Some steps lead from one state to another. -/
inductive Steps (w : Str → Str → Bool) (c : Nat → Codec) (Fit : Nat → Msg → Prop) : Net → Net → Prop
  | refl {n : Net} : Steps w c Fit n n
  | step {n n' n'' : Net} : Steps w c Fit n n' → Step w c Fit n' n'' → Steps w c Fit n n''

/-- Args and kwargs of a PUBLISH to `t` that the broker has been given. -/
def publication (t : Str) (e : Broker.Event) : Option (GoSlice × GoMap) :=
  match e.op with
  | .publish _ _ _ t' a k _ _ => if t' = t then some (a, k) else none
  | _ => none

/-- The session whose PUBLISH to `t` it is. -/
def publisher (t : Str) (e : Broker.Event) : Option Nat :=
  match e.op with
  | .publish s _ _ t' _ _ _ _ => if t' = t then some s else none
  | _ => none

end Wamp.Net
