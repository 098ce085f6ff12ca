import Verif.Spec.AsNew
/-!
# Runs with something in them that the others do not see
-/
namespace Wamp

/-- Numbers from `i` on moved up by one; nothing becomes `i`. -/
def skip (i j : Nat) : Nat := if j < i then j else j + 1

end Wamp

namespace Wamp.Dealer

/-- The results of calls made one after the other, without the results of the YIELDs and ERRORs for invocation `i`; a panic is the last
one. -/
def repliesBut (i : Nat) (w : Str → Str → Bool) (b : State) : List Op → List (Res Out)
  | [] => []
  | op :: ops =>
    (if answerFor i ⟨op, (step w b op).2⟩ = true then [] else [(step w b op).2]) ++
    match (step w b op).2 with | .panic => [] | _ => repliesBut i w (step w b op).1 ops

/-- No REGISTER that was answered with registration ID `g` asked for the round-robin policy. -/
def noTurns (h : List Event) (g : Nat) : Prop :=
  ∀ e ∈ h, ∀ s q o p order rnd q' s', e = ⟨.receive s (.register q o p) order rnd, .ok (.msg (.registered q' g) s')⟩ →
    o.text (str "invoke") ≠ str "roundrobin"

end Wamp.Dealer
