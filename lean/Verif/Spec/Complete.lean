import Verif.Spec.Delivery
/-!
# Nothing is missing: who stays, who answers, what is finished
-/
namespace Wamp.System
open Wamp

/-- The router has not removed session `s`. -/
def Stays (x : Sys) (s : Nat) : Prop := (∀ e ∈ x.bh, ∀ o, e.op ≠ .remove s o) ∧ ∀ e ∈ x.dh, ∀ o, e.op ≠ .remove s o

/-- `m` answers invocation `i`. -/
def answersInvocation (i : Nat) : Msg → Prop
  | .yield j _ _ _ _ => j = i
  | .error t j _ _ _ _ => t = 68 ∧ j = i
  | _ => False

/-- `m` is a final answer to invocation `i`: a YIELD that is not progressive, or an ERROR. -/
def endsInvocation (i : Nat) : Msg → Prop
  | .yield j o _ _ _ => j = i ∧ o.flag (str "progress") = false
  | .error t j _ _ _ _ => t = 68 ∧ j = i
  | _ => False

/-- `m` is an INVOCATION with ID `i`. -/
def isInvocation (i : Nat) : Msg → Prop
  | .invocation j _ _ _ _ _ => j = i
  | _ => False

/-- `m` is a final answer to CALL `r`: a RESULT that is not progressive, or an ERROR. -/
def endsCall (r : Nat) : Msg → Prop
  | .result q d _ _ _ => q = r ∧ d.flag (str "progress") = false
  | .error t q _ _ _ _ => t = 48 ∧ q = r
  | _ => False

/-- In this action no client answers an invocation that it has not got. -/
def Log.polite (l : Log) : Action → Prop
  | .send s _ m => ∀ i, answersInvocation i m → ∃ m' ∈ l.got s, isInvocation i m'
  | _ => True

/-- Every state that some sequence of polite actions leads to. -/
inductive Log.Polite (w : Str → Str → Bool) : Log → Prop where
  | new : Log.Polite w Log.new
  | act {l l' : Log} (a : Action) : Log.Polite w l → l.polite a → l.act w a = some l' → Log.Polite w l'

/-- Nothing is under way. -/
def Log.Idle (l : Log) : Prop := ∀ s, l.sys.up s = [] ∧ l.sys.down s = []

/-- Every INVOCATION that a client has got, some client has answered finally. -/
def Log.Served (l : Log) : Prop := ∀ c i, (∃ m ∈ l.got c, isInvocation i m) → ∃ p, ∃ m ∈ l.sys.sent p, endsInvocation i m

/-- The answer to request `m` that its sender expects is among `msgs`: SUBSCRIBED; PUBLISHED if asked for; REGISTERED or ERROR. -/
def answeredBy (msgs : List Msg) : Msg → Prop
  | .subscribe r _ _ => ∃ i, .subscribed r i ∈ msgs
  | .publish r o _ _ _ => o.flag (str "acknowledge") = true → ∃ n, .published r n ∈ msgs
  | .register r _ _ => (∃ g, .registered r g ∈ msgs) ∨ ∃ d u a k, .error 64 r d u a k ∈ msgs
  | _ => True

/-- The messages the router takes, and whose they are, during these actions. -/
def Log.taken (w : Str → Str → Bool) : Log → List Action → List (Nat × Msg)
  | _, [] => []
  | l, a :: as =>
    (match a with
     | .route p _ _ _ => ((l.sys.up p).take 1).map fun m => (p, m)
     | _ => []) ++
    match l.act w a with
    | some l' => Log.taken w l' as
    | none => []

/-- Args and kwargs of a PUBLISH to `t`. -/
def publishedTo (t : Str) : Msg → Option (GoSlice × GoMap)
  | .publish _ _ t' a k => if t' = t then some (a, k) else none
  | _ => none

/-- Args and kwargs of an EVENT for subscription `i`. -/
def eventFor (i : Nat) : Msg → Option (GoSlice × GoMap)
  | .event i' _ _ a k => if i' = i then some (a, k) else none
  | _ => none

end Wamp.System
