import Verif.Model.SyncMap
/-!
# What a map is
-/
namespace Wamp.SyncMap
variable {K V X Y : Type} [DecidableEq X]

/-- `Hist gk gv h m`: `h` (newest first) are the calls made so far on a new map. -/
inductive Hist (gk : GoTy K X) (gv : GoTy V Y) : List (Op K V X) → State X Y → Prop where
  | new : Hist gk gv [] []
  | step {h m} (op : Op K V X) : Hist gk gv h m → Hist gk gv (op :: h) (step gk gv m op).1

/-- What the map holds for `k` after the calls `h`: the value stored last, unless it was deleted since. -/
def held [DecidableEq K] (k : K) : List (Op K V X) → Option V
  | [] => none
  | .store k' v :: h => if k' = k then some v else held k h
  | .delete k' :: h => if k' = k then none else held k h
  | .loadAndDelete k' :: h => if k' = k then none else held k h
  | .loadOrStore k' v :: h => if k' = k then some ((held k h).getD v) else held k h
  | .load _ :: h => held k h
  | .range .. :: h => held k h

/-- No nil interface among the keys and values passed to the call. -/
def Op.NonNil (gk : GoTy K X) (gv : GoTy V Y) : Op K V X → Prop
  | .delete k | .load k | .loadAndDelete k => gk.assert (gk.box k) = some k
  | .loadOrStore k v | .store k v => gk.assert (gk.box k) = some k ∧ gv.assert (gv.box v) = some v
  | .range .. => True

/-- What a call may return if the map holds what `now` says. -/
inductive Answers (now : K → Option V) : Op K V X → Out K V → Prop where
  | delete (k : K) : Answers now (.delete k) .unit
  | load (k : K) : Answers now (.load k) (.found (now k))
  | loadAndDelete (k : K) : Answers now (.loadAndDelete k) (.found (now k))
  | old (k : K) (v w : V) : now k = some w → Answers now (.loadOrStore k v) (.actual w true)
  | fresh (k : K) (v : V) : now k = none → Answers now (.loadOrStore k v) (.actual v false)
  | store (k : K) (v : V) : Answers now (.store k v) .unit
  /-- `Range`: the function is called with different keys, each with the value the map holds for it; with all of them, or up to the first
  for which it returns false. -/
  | range (f : K → V → Bool) (order : List (Option X)) (l : List (K × V)) : (l.map Prod.fst).Nodup → (∀ k v, (k, v) ∈ l → now k = some v) →
      ((∀ p ∈ l, f p.1 p.2 = true) ∧ (∀ k v, now k = some v → (k, v) ∈ l) ∨
        ∃ before k v, l = before ++ [(k, v)] ∧ (∀ p ∈ before, f p.1 p.2 = true) ∧ f k v = false) →
      Answers now (.range f order) (.seen l)

end Wamp.SyncMap
