import Verif.Spec.Complete
/-!
# A call made in parts
-/
namespace Wamp.System
open Wamp

/-- `m` is INVOCATION `i`. -/
def invokes (i : Nat) : Msg → Bool
  | .invocation j _ _ _ _ _ => j = i
  | _ => false

/-- `m` is CALL `r`. -/
def isPart (r : Nat) : Msg → Bool
  | .call r' _ _ _ _ _ => r' = r
  | _ => false

/-- The parts of call `r` of `s` among these messages, each with the client it came from. -/
def partsOf (s r : Nat) (l : List (Nat × Msg)) : List Msg := (l.filter fun q => q.1 = s ∧ isPart r q.2 = true).map (·.2)

/-- `out` hands part `m` of a call to the callee, under invocation `i` of registration `g`: the same content, progressive if the part is, and
asking for progressive results if the part does. -/
def HandedOn (i g : Nat) (m out : Msg) : Prop :=
  match m with
  | .call _ o _ a k b => ∃ d a' k' b', out = .invocation i g d a' k' b' ∧ sameContent a k b a' k' b' ∧
      d.flag (str "progress") = o.flag (str "progress") ∧ d.flag (str "receive_progress") = o.flag (str "receive_progress")
  | _ => False

/-- These parts have been handed on, one by one and in this order. -/
inductive AllHandedOn (i g : Nat) : List Msg → List Msg → Prop where
  | nil : AllHandedOn i g [] []
  | cons {m out : Msg} {l l' : List Msg} : HandedOn i g m out → AllHandedOn i g l l' → AllHandedOn i g (m :: l) (out :: l')

end Wamp.System
