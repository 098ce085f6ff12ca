import Verif.Model.Base
/-!
# What an ISO 8601 zone suffix means
-/
namespace Wamp.Spec
open Wamp

/-- The value of a decimal digit. -/
def digit (c : UInt8) : Option Nat := if 48 ≤ c.toNat ∧ c.toNat ≤ 57 then some (c.toNat - 48) else none

/-- The minutes east of UTC a suffix stands for: `Z`, or a sign, two digits of hours and two digits of minutes (below 60). -/
def zoneMinutes : Str → Option Int
  | [c] => if c = 90 then some 0 else none
  | [sign, h1, h0, m1, m0] =>
    match digit h1, digit h0, digit m1, digit m0 with
    | some h1, some h0, some m1, some m0 =>
      if 6 ≤ m1 then none
      else
        let t : Int := (((h1 * 10 + h0) * 60 + (m1 * 10 + m0) : Nat) : Int)
        if sign = 43 then some t else if sign = 45 then some (-t) else none
    | _, _, _, _ => none
  | _ => none

end Wamp.Spec
