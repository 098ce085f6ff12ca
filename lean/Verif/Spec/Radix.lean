import Verif.Model.Radix
/-!
# What a table of patterns is expected to do
-/
namespace Wamp.Radix
open Wamp

/-- What is done to a tree. -/
inductive Op (V : Type) where
  | insert (k : Str) (v : V)
  | delete (k : Str)

variable {V : Type}

/-- The value stored under `k` by the last of these operations that concerns `k` (the list has the newest first). -/
def stored (k : Str) : List (Op V) → Option V
  | [] => none
  | .insert k' v :: ops => if k = k' then some v else stored k ops
  | .delete k' :: ops => if k = k' then none else stored k ops

/-- `v` is stored under the longest prefix of `name` under which anything is stored. -/
def AtLongest (ops : List (Op V)) (name : Str) (v : V) : Prop :=
  ∃ p, p <+: name ∧ stored p ops = some v ∧ ∀ p', p' <+: name → stored p' ops ≠ none → p'.length ≤ p.length

/-- The tree after these operations. -/
def Tree.after : List (Op V) → Tree V
  | [] => .new
  | .insert k v :: ops => (Tree.after ops).insert k v
  | .delete k :: ops => (Tree.after ops).delete k

/-- The table that the broker and the dealer of the model have instead, after these operations. -/
def table : List (Op V) → AMap Str V
  | [] => []
  | .insert k v :: ops => (table ops).set k v
  | .delete k :: ops => (table ops).del k

end Wamp.Radix
