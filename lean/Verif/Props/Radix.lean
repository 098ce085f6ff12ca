import Verif.Lemmas.RadixDelete
/-!
# C143: the prefix tree finds the longest pattern
-/
namespace Wamp.Radix
open Wamp

/-- **C143.**  Whatever was inserted into and deleted from a tree, in whatever order: a lookup finds what is stored under the longest prefix of the name under which anything is stored,
and it finds nothing only if nothing is stored under any prefix of the name. -/
theorem C143_longest {V : Type} (ops : List (Op V)) (name : Str) :
    (∀ v, (Tree.after ops).lookup name = some v ↔ AtLongest ops name v) ∧
    ((Tree.after ops).lookup name = none ↔ ∀ p, p <+: name → stored p ops = none) := by
  rw [lookup_best]
  rcases best_spec name (fun k => stored k ops) none with ⟨p, v, h1, h2, h3, h4⟩ | ⟨h1, h2⟩
  · rw [h4]
    refine ⟨fun w => ⟨?_, ?_⟩, ⟨fun h => (by cases h), fun h => ?_⟩⟩
    · intro e
      cases e
      exact ⟨p, h1, h2, h3⟩
    · rintro ⟨p', g1, g2, g3⟩
      have l1 := h3 p' g1 (by show stored p' ops ≠ none; rw [g2]; simp)
      have l2 := g3 p h1 (by show stored p ops ≠ none; rw [show stored p ops = some v from h2]; simp)
      have e : p' = p := by
        rw [List.prefix_iff_eq_take.1 h1, List.prefix_iff_eq_take.1 g1]
        congr 1
        omega
      rw [e] at g2
      exact (show stored p ops = some v from h2).symm.trans g2
    · have := h p h1
      rw [show stored p ops = some v from h2] at this
      cases this
  · rw [h2]
    refine ⟨fun w => ⟨fun h => (by cases h), ?_⟩, ⟨fun _ => h1, fun _ => rfl⟩⟩
    rintro ⟨p', g1, g2, -⟩
    rw [show stored p' ops = none from h1 p' g1] at g2
    cases g2

/-- **C143.**  The table that the model's broker and dealer have in place of the tree: the lookup finds the same, and there are as many entries. -/
theorem C143_table {V : Type} (ops : List (Op V)) (name : Str) :
    (Tree.after ops).lookup name = longestPrefix (table ops) name ∧ (Tree.after ops).size = (table ops).length := by
  refine ⟨?_, (holds_after ops).size⟩
  cases h : longestPrefix (table ops) name with
  | none =>
    rw [(C143_longest ops name).2]
    intro p hp
    rw [← table_get]
    exact longestPrefix_none h p hp
  | some v =>
    rw [(C143_longest ops name).1]
    obtain ⟨p, h1, h2, h3⟩ := longestPrefix_some h
    refine ⟨p, h1, by rw [← table_get]; exact h2, fun p' hp' hs => h3 p' hp' ?_⟩
    rw [table_get]
    cases hg : stored p' ops with
    | none => exact absurd hg hs
    | some _ => rfl

/-- A tree in which nodes have been split, at their end and in the middle, and merged again. -/
private def ops : List (Op Nat) :=
  [.delete "io.xc".toUTF8.toList, .insert "io".toUTF8.toList 4, .insert "io.xc".toUTF8.toList 3, .insert "io.xyz".toUTF8.toList 2, .insert "io.xconn".toUTF8.toList 1]

example : (Tree.after ops).lookup "io.xconn.add".toUTF8.toList = some 1 := by decide +kernel
example : (Tree.after ops).lookup "io.xco".toUTF8.toList = some 4 := by decide +kernel
example : (Tree.after ops).lookup "com".toUTF8.toList = none := by decide +kernel
example : (Tree.after ops).size = 3 := by decide +kernel
example : (Tree.after (.delete "io.xyz".toUTF8.toList :: ops)).lookup "io.xconn".toUTF8.toList = some 1 := by decide +kernel

end Wamp.Radix
