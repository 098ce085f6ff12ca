import Verif.Spec.Zone
import Verif.Spec.Json
import Verif.Model.Challenge
import Verif.Spec.Acceptor
/-!
# What timestamps and challenges are supposed to say
-/
namespace Wamp.Spec
open Wamp

/-- A number of two digits. -/
def number2 (a b : UInt8) : Option Nat :=
  match digit a, digit b with
  | some a, some b => some (10 * a + b)
  | _, _ => none

/-- Reading `YYYY-MM-DDThh:mm:ss` and a zone: the date, the time, and the minutes east of UTC. -/
def readTime : Str → Option ((Nat × Nat × Nat) × (Nat × Nat × Nat) × Int)
  | y3 :: y2 :: y1 :: y0 :: d1 :: m1 :: m0 :: d2 :: t1 :: t0 :: sep :: h1 :: h0 :: c1 :: n1 :: n0 :: c2 :: s1 :: s0 :: zone =>
    if d1 = 45 ∧ d2 = 45 ∧ sep = 84 ∧ c1 = 58 ∧ c2 = 58 then
      match number2 y3 y2, number2 y1 y0, number2 m1 m0, number2 t1 t0, number2 h1 h0, number2 n1 n0, number2 s1 s0, zoneMinutes zone with
      | some y, some y', some m, some d, some h, some n, some s, some z => some ((100 * y + y', m, d), (h, n, s), z)
      | _, _, _, _, _, _, _, _ => none
    else none
  | _ => none

/-- Numbers that fit their columns. -/
def Clock.sane (t : Clock) : Prop :=
  t.year < 10000 ∧ t.month < 100 ∧ t.day < 100 ∧ t.hour < 100 ∧ t.minute < 100 ∧ t.second < 100 ∧ -360000 < t.offset ∧ t.offset < 360000

/-- The call of the acceptor got its WAMP-CRA challenge from `GenerateWAMPCRAChallenge` with the draw `d`. -/
def Generated (c : Acceptor.Call) (d : Draw) : Prop :=
  ∀ req r, c.approved req r → c.env.craChallenge = challengeFor d r

end Wamp.Spec
