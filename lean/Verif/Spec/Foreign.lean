import Verif.Spec.Delivery
/-!
# A router, its clients, and others that do not use this library

The system of Spec/Delivery, in which some clients do not use this library's `Session`: they send any messages they like, whenever they like.
-/
namespace Wamp.System
open Wamp

/-- What can happen next: an action of Spec/System, or a foreign client sends any message. -/
inductive Move where
  | act (a : Action)
  | inject (s : Nat) (m : Msg)

/-- One move; `F s`: client `s` is foreign.  A foreign client that has joined may send any message; the others send what their `Session` lets
through.  (When a foreign client takes a message from its link, what happens in the `Session` of the model is of no importance: nothing it sends
depends on it.) -/
def Log.move (w : Str → Str → Bool) (F : Nat → Bool) (l : Log) : Move → Option Log
  | .act (.send s data m) => if F s then none else l.act w (.send s data m)
  | .act a => l.act w a
  | .inject s m =>
    if F s = true ∧ s ∈ l.sys.joined then
      some { l with sys := { l.sys with up := upd l.sys.up s (l.sys.up s ++ [m]), sent := upd l.sys.sent s (m :: l.sys.sent s) } }
    else none

/-- Moves, oldest first. -/
def Log.moves (w : Str → Str → Bool) (F : Nat → Bool) : Log → List Move → Option Log
  | l, [] => some l
  | l, v :: vs => (l.move w F v).bind fun l' => l'.moves w F vs

/-- Every state that some sequence of moves leads to. -/
inductive Log.Open (w : Str → Str → Bool) (F : Nat → Bool) : Log → Prop where
  | new : Log.Open w F Log.new
  | move {l l' : Log} (v : Move) : Log.Open w F l → l.move w F v = some l' → Log.Open w F l'

/-- The messages the router takes, and whose they are, during these moves. -/
def Log.takenFrom (w : Str → Str → Bool) (F : Nat → Bool) : Log → List Move → List (Nat × Msg)
  | _, [] => []
  | l, v :: vs =>
    (match v with
     | .act (.route p _ _ _) => ((l.sys.up p).take 1).map fun m => (p, m)
     | _ => []) ++
    match l.move w F v with
    | some l' => Log.takenFrom w F l' vs
    | none => []

end Wamp.System
