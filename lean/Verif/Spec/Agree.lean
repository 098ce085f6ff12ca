import Verif.Spec.Complete
/-!
# The last answer to a request
-/
namespace Wamp.System
open Wamp

/-- The request that a message settles: the one it answers, unless it is a progressive RESULT. -/
def settles : Msg → Option (Nat × Nat)
  | .result r d _ _ _ => if d.flag (str "progress") = true then none else some (48, r)
  | m => Session.answers m

end Wamp.System
