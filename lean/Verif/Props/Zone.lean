import Verif.Model.Auth
import Verif.Spec.Zone
/-!
# C87: the zone suffix of `ISO8601`
-/
namespace Wamp
open Spec

theorem pad2_digits : ∀ n : Fin 100, pad2 n.val = [UInt8.ofNat (48 + n.val / 10), UInt8.ofNat (48 + n.val % 10)] ∧
    digit (UInt8.ofNat (48 + n.val / 10)) = some (n.val / 10) ∧ digit (UInt8.ofNat (48 + n.val % 10)) = some (n.val % 10) := by
  decide +kernel

/-- **C87** For every zone offset (in seconds) of less than 100 hours, the suffix is a well-formed ISO 8601 zone that stands for that offset,
with the seconds cut off. -/
theorem C87_zone (o : Int) (h1 : -360000 < o) (h2 : o < 360000) : zoneMinutes (zoneSuffix o) = some (o.tdiv 60) := by
  have key : ∀ (n : Nat), n < 360000 → ∀ sign : UInt8,
      zoneMinutes ([sign] ++ pad2 (n / 3600) ++ pad2 (n % 3600 / 60)) =
        if sign = 43 then some ((n / 60 : Nat) : Int) else if sign = 45 then some (-((n / 60 : Nat) : Int)) else none := by
    intro n hn sign
    obtain ⟨a1, a2, a3⟩ := pad2_digits ⟨n / 3600, by omega⟩
    obtain ⟨b1, b2, b3⟩ := pad2_digits ⟨n % 3600 / 60, by omega⟩
    simp only at a1 a2 a3 b1 b2 b3
    have e : (n / 3600 / 10 * 10 + n / 3600 % 10) * 60 + (n % 3600 / 60 / 10 * 10 + n % 3600 / 60 % 10) = n / 60 := by omega
    have e' : ¬ 6 ≤ n % 3600 / 60 / 10 := by omega
    simp only [a1, b1, List.cons_append, List.nil_append, zoneMinutes, a2, a3, b2, b3, if_neg e', e]
  unfold zoneSuffix
  split
  · subst_vars; rfl
  · split
    · rw [show str "-" = [45] from rfl, key _ (by omega)]
      simp only [show (45 : UInt8) ≠ 43 by decide, if_false, if_true]
      congr 1
      rw [show o = -((-o).toNat : Int) by omega, Int.neg_tdiv, Int.tdiv_eq_ediv_of_nonneg (by omega)]
      simp
    · rw [show str "+" = [43] from rfl, key _ (by omega)]
      simp only [if_true]
      congr 1
      rw [Int.tdiv_eq_ediv_of_nonneg (by omega)]
      omega

/-- Newfoundland, Nepal, UTC. -/
example : zoneSuffix (-12600) = str "-0330" ∧ zoneSuffix 20700 = str "+0545" ∧ zoneSuffix 0 = str "Z" ∧
    zoneMinutes (str "-0330") = some (-210) := by decide +kernel

end Wamp
