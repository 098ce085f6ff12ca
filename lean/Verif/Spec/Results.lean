import Verif.Spec.Complete
/-!
# The answers to a call
-/
namespace Wamp.System
open Wamp

/-- `m` is a RESULT or ERROR for CALL `r`. -/
def answersCall (r : Nat) : Msg → Bool
  | .result r' _ _ _ _ => r' = r
  | .error t r' _ _ _ _ => t = 48 ∧ r' = r
  | _ => false

/-- The answers to invocation `i` among these messages: its YIELDs up to the first that is not progressive, or up to an ERROR.  (`rp`: the caller
asked for progressive results.  If it did not, the first YIELD is the last.) -/
def answersTo (rp : Bool) (i : Nat) : List Msg → List Msg
  | [] => []
  | .yield j o a k b :: l =>
    if j = i then .yield j o a k b :: (if rp = true ∧ o.flag (str "progress") = true then answersTo rp i l else [])
    else answersTo rp i l
  | .error t j d u a k :: l => if t = 68 ∧ j = i then [.error t j d u a k] else answersTo rp i l
  | _ :: l => answersTo rp i l

/-- `out` gives answer `m` to the caller whose request was `r`: the same content, progressive if the answer is and the caller asked for it. -/
def PassedOn (rp : Bool) (r : Nat) (m out : Msg) : Prop :=
  match m with
  | .yield _ o a k b => ∃ d a' k' b', out = .result r d a' k' b' ∧ sameContent a k b a' k' b' ∧
      d.flag (str "progress") = (rp && o.flag (str "progress"))
  | .error _ _ d u a k => out = .error 48 r (some (d.getD [])) u a k
  | _ => False

/-- These messages have been passed on, one by one and in this order. -/
inductive AllPassedOn (rp : Bool) (r : Nat) : List Msg → List Msg → Prop where
  | nil : AllPassedOn rp r [] []
  | cons {m out : Msg} {l l' : List Msg} : PassedOn rp r m out → AllPassedOn rp r l l' → AllPassedOn rp r (m :: l) (out :: l')

end Wamp.System
