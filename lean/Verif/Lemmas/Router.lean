import Verif.Model.Router
import Verif.Lemmas.Base
/-!
# Lookup of prefixes and wildcard patterns
-/
namespace Wamp
variable {w : Str → Str → Bool}

theorem longestPrefix_some {V : Type} {t : AMap Str V} {u : Str} {v : V} (h : longestPrefix t u = some v) :
    ∃ p, p <+: u ∧ t.get p = some v ∧ ∀ p', p' <+: u → (t.get p').isSome → p'.length ≤ p.length := by
  have key : ∀ n, n ≤ u.length → longestPrefix.go t u n = some v →
      ∃ p, p <+: u ∧ p.length ≤ n ∧ t.get p = some v ∧ ∀ p', p' <+: u → p'.length ≤ n → (t.get p').isSome → p'.length ≤ p.length := by
    intro n
    induction n with
    | zero =>
      intro _ h
      exact ⟨[], List.nil_prefix, Nat.le_refl _, h, fun p' _ hl _ => hl⟩
    | succ n ih =>
      intro hn h
      simp only [longestPrefix.go] at h
      split at h
      · rename_i v' hv
        cases h
        refine ⟨u.take (n + 1), List.take_prefix _ _, List.length_take_le _ _, hv, fun p' _ hl _ => ?_⟩
        rw [List.length_take]; omega
      · rename_i hv
        obtain ⟨p, h1, h2, h3, h4⟩ := ih (by omega) h
        refine ⟨p, h1, by omega, h3, fun p' hp hl hs => ?_⟩
        by_cases e : p'.length = n + 1
        · have : p' = u.take (n + 1) := by rw [← e]; exact List.prefix_iff_eq_take.1 hp
          rw [this, hv] at hs; cases hs
        · exact h4 p' hp (by omega) hs
  obtain ⟨p, h1, -, h3, h4⟩ := key u.length (Nat.le_refl _) h
  exact ⟨p, h1, h3, fun p' hp hs => h4 p' hp hp.length_le hs⟩

theorem longestPrefix_none {V : Type} {t : AMap Str V} {u : Str} (h : longestPrefix t u = none) :
    ∀ p, p <+: u → t.get p = none := by
  have key : ∀ n, longestPrefix.go t u n = none → ∀ p, p <+: u → p.length ≤ n → t.get p = none := by
    intro n
    induction n with
    | zero =>
      intro h p _ hl
      have : p = [] := List.length_eq_zero_iff.1 (by omega)
      rw [this]; exact h
    | succ n ih =>
      intro h p hp hl
      simp only [longestPrefix.go] at h
      split at h
      · cases h
      · rename_i hv
        by_cases e : p.length = n + 1
        · have : p = u.take (n + 1) := by rw [← e]; exact List.prefix_iff_eq_take.1 hp
          rw [this]; exact hv
        · exact ih h p hp (by omega)
  intro p hp
  exact key u.length h p hp hp.length_le

theorem firstWildcard_some {V : Type} {order : List Str} {wc : AMap Str V} {u : Str} {v : V}
    (h : firstWildcard w order wc u = some v) : ∃ p, w u p = true ∧ wc.get p = some v := by
  simp only [firstWildcard] at h
  rw [Option.bind_eq_some_iff] at h
  obtain ⟨p, h1, h2⟩ := h
  exact ⟨p, List.find?_some h1, h2⟩

theorem firstWildcard_none {V : Type} {order : List Str} {wc : AMap Str V} {u : Str}
    (h : firstWildcard w order wc u = none) : ∀ p, w u p = true → wc.get p = none := by
  simp only [firstWildcard] at h
  rw [Option.bind_eq_none_iff] at h
  intro p hp
  cases hf : (arrange order wc.keys).find? fun pattern => w u pattern with
  | none =>
    rw [List.find?_eq_none] at hf
    cases hg : wc.get p with
    | none => rfl
    | some v =>
      have : p ∈ arrange order wc.keys := (mem_arrange order wc.keys p).2 ((AMap.mem_keys wc p).2 (by simp [hg]))
      exact absurd hp (hf p this)
  | some p' =>
    have h1 := h p' hf
    have h2 : p' ∈ wc.keys := (mem_arrange order wc.keys p').1 (List.mem_of_find?_eq_some hf)
    rw [AMap.mem_keys, h1] at h2; cases h2

theorem normMatch_prefix (p : Str) : normMatch p = matchPrefix ↔ p = str "prefix" := by
  simp only [normMatch]
  constructor
  · intro h
    split at h
    · assumption
    · split at h
      · exact absurd h (by decide)
      · exact absurd h (by decide)
  · rintro rfl; rfl

theorem normMatch_wildcard (p : Str) : normMatch p = matchWildcard ↔ p = str "wildcard" := by
  simp only [normMatch]
  constructor
  · intro h
    split at h
    · exact absurd h (by decide)
    · split at h
      · assumption
      · exact absurd h (by decide)
  · rintro rfl; rfl

end Wamp
