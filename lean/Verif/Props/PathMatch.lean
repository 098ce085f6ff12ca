import Verif.Lemmas.PathMatch
import Verif.Props.Wildcard
/-!
# C100: wildcard patterns match as `path.Match` documents
-/
namespace Wamp.PathMatch
open Wamp.Wildcard (Documented Glob ordinary Plain)

/-- **C100** what holds: a well-formed pattern none of whose classes contains `/` matches the names that its terms match, for ASCII
names; for all names if the pattern has neither `?` nor classes. -/
theorem C100_matches_partial {is : List Item} {p : Str} (h : Text is p) (s : Str) (hb : Bytewise is s) (hn : NoSlash is) :
    wildcardMatch s p = true ↔ Matches is s := by
  obtain ⟨b, h1, h2⟩ := pathMatch_text h s
  rw [wildcardMatch, h1]
  exact h2 hb hn

/-- A pattern with every kind of term: `a[b-dx]*\*?[^y/]`. -/
def demo : List Item := [.lit 97, .cls false [(98, 100), (120, 120)], .star, .lit 42, .any, .cls true [(121, 121), (47, 47)]]

theorem utf8_ascii {r : Nat} (h : r < 128) : utf8 r = [UInt8.ofNat r] := by simp [utf8, h]

theorem demo_text : Text demo (str "a[b-dx]*\\*?[^y/]") := by
  have c : ∀ r, r < 128 → r ≠ 92 → r ≠ 45 → r ≠ 93 → CharText r [UInt8.ofNat r] := fun r h1 h2 h3 h4 => by
    rw [← utf8_ascii h1]; exact .plain (.inl (by omega)) h2 h3 h4
  have e : str "a[b-dx]*\\*?[^y/]" = 97 :: 91 :: (([98] ++ 45 :: ([100] ++ ([120] ++ []))) ++ 93 :: (42 :: 92 :: 42 :: 63 :: 91 :: 94 ::
      (([121] ++ ([47] ++ [])) ++ 93 :: []))) := by decide +kernel
  rw [e]
  refine .lit (by decide) (by decide) (by decide) (by decide) (.cls (by simp) ?_ (by decide) (.star (.escaped (.any (.negated (by simp) ?_ .nil)))))
  · exact .span (c 98 (by decide) (by decide) (by decide) (by decide)) (c 100 (by decide) (by decide) (by decide) (by decide))
      (.one (c 120 (by decide) (by decide) (by decide) (by decide)) .nil)
  · exact .one (c 121 (by decide) (by decide) (by decide) (by decide)) (.one (c 47 (by decide) (by decide) (by decide) (by decide)) .nil)

/-- It meets the assumptions, and matches `acx.y*z!` but not `aex*z!`, `ac/*z!` or `ac*zy`. -/
example : Text demo (str "a[b-dx]*\\*?[^y/]") ∧ NoSlash demo ∧ Bytewise demo (str "acx.y*z!") ∧
    [str "acx.y*z!", str "aex*z!", str "ac/*z!", str "ac*zy"].map (wildcardMatch · (str "a[b-dx]*\\*?[^y/]")) = [true, false, false, false] := by
  refine ⟨demo_text, ?_, .inl (by decide +kernel), by decide +kernel⟩
  intro neg rs h
  simp only [demo, List.mem_cons, reduceCtorEq, Item.cls.injEq, false_or, List.not_mem_nil, or_false] at h
  rcases h with ⟨rfl, rfl⟩ | ⟨rfl, rfl⟩ <;> decide

/-- **C100** An ill-formed pattern is reported as such, whatever the name, and only those are; in the broker and the dealer it matches
nothing. -/
theorem C100_malformed (p s : Str) : (pathMatch p s = .err ↔ ¬∃ is, Text is p) ∧ ((¬∃ is, Text is p) → wildcardMatch s p = false) := by
  have key : pathMatch p s = .err ↔ ¬∃ is, Text is p := by
    constructor
    · rintro h ⟨is, ht⟩
      obtain ⟨b, hb, -⟩ := pathMatch_text ht s
      rw [h] at hb
      cases hb
    · intro h
      cases hp : pathMatch p s with
      | err => rfl
      | panic => exact absurd hp (pathMatch_no_panic p s)
      | ok b => exact absurd (pathMatch_inv hp) h
  refine ⟨key, fun h => ?_⟩
  rw [wildcardMatch, key.2 h]

/-- `a[` is ill-formed: it is refused even for a name that fails at the first character. -/
example : pathMatch (str "a[") (str "xyz") = .err ∧ pathMatch (str "a*[]") (str "xyz") = .err ∧ pathMatch (str "a\\") (str "a\\") = .err := by
  decide +kernel

/-- **C100** Matching never crashes, whatever the pattern and the name. -/
theorem C100_no_crash (p s : Str) : pathMatch p s ≠ .panic := pathMatch_no_panic p s

/-- **C100** The full statement fails: `*` cannot end between the bytes of a character for the documentation, but it does for the code:
the pattern `*??`, which asks for two characters, matches the single character `€`. -/
theorem C100_splits_characters : Text [.star, .any, .any] (str "*??") ∧ utf8 0x20ac = [0xe2, 0x82, 0xac] ∧
    wildcardMatch (utf8 0x20ac) (str "*??") = true :=
  ⟨.star (.any (.any .nil)), by decide +kernel, by decide +kernel⟩

/-- **C100** And it fails for a class that contains `/`: the search takes the first match and does not come back, so that `*[^a]*b` does
not match `x/b`, although `[^a]` could be the slash. -/
theorem C100_class_slash : Text [.star, .cls true [(97, 97)], .star, .lit 98] (str "*[^a]*b") ∧
    Matches [.star, .cls true [(97, 97)], .star, .lit 98] (str "x/b") ∧ wildcardMatch (str "x/b") (str "*[^a]*b") = false := by
  refine ⟨?_, ?_, by decide +kernel⟩
  · have e : str "*[^a]*b" = 42 :: 91 :: 94 :: ((utf8 97 ++ []) ++ 93 :: 42 :: 98 :: []) := by decide +kernel
    rw [e]
    exact .star (.negated (by simp) (.one (.plain (.inl (by decide)) (by decide) (by decide) (by decide)) .nil)
      (.star (.lit (by decide) (by decide) (by decide) (by decide) .nil)))
  · have e : str "x/b" = [120, 47, 98] := by decide +kernel
    rw [e]
    exact .more (by decide) (.none (.one (by decide) (.none (.one rfl .done))))

/-! ## The assumption of C92 holds -/

/-- The terms of a pattern without `?`, `[` and `\`. -/
def simpleItems (p : Str) : List Item := p.map fun c => if c = 42 then .star else .lit c

theorem simple_text {p : Str} (h : ∀ c ∈ p, ordinary c) : Text (simpleItems p) p := by
  induction p with
  | nil => exact .nil
  | cons c p ih =>
    have ih := ih fun c hc => h c (.tail _ hc)
    obtain ⟨h1, h2, h3⟩ := h c (.head _)
    simp only [simpleItems, List.map_cons]
    split
    · rename_i hc; subst hc; exact .star ih
    · rename_i hc; exact .lit hc h1 h3 h2 ih

theorem simple_matches (p s : Str) : Matches (simpleItems p) s ↔ Glob p s := by
  constructor
  · intro h
    generalize hq : simpleItems p = q at h
    induction h generalizing p with
    | done =>
      cases p with
      | nil => exact .done
      | cons => cases hq
    | one ha _ ih =>
      cases p with
      | nil => cases hq
      | cons c p =>
        simp only [simpleItems, List.map_cons, List.cons.injEq] at hq
        obtain ⟨hq, hr⟩ := hq
        split at hq
        · subst hq; exact absurd ha (by simp [Item.accepts])
        · rename_i hc
          subst hq
          have := ih p hr
          simp only [Item.accepts] at ha
          subst ha
          exact .char _ hc this
    | none _ ih =>
      cases p with
      | nil => cases hq
      | cons c p =>
        simp only [simpleItems, List.map_cons, List.cons.injEq] at hq
        obtain ⟨hq, hr⟩ := hq
        split at hq
        · rename_i hc; subst hc; exact .none (ih p hr)
        · cases hq
    | more hne _ ih =>
      have := ih p hq
      cases p with
      | nil => cases hq
      | cons c p =>
        simp only [simpleItems, List.map_cons, List.cons.injEq] at hq
        obtain ⟨hq, -⟩ := hq
        split at hq
        · rename_i hc; subst hc; exact .more _ hne this
        · cases hq
  · intro h
    induction h with
    | done => exact .done
    | char c hc _ ih =>
      simp only [simpleItems, List.map_cons, show ¬c = 42 from hc, if_false]
      exact .one rfl ih
    | none _ ih => exact .none ih
    | more c hc _ ih => exact .more hc ih

/-- **C92** `wildcardMatch` of dealer.go does what the theorems of C92 assume. -/
theorem C92_documented : Documented wildcardMatch := by
  intro p s hp
  have hlit : ∀ i ∈ simpleItems p, i = .star ∨ ∃ b, i = .lit b := by
    intro i hi
    obtain ⟨c, -, rfl⟩ := List.mem_map.1 hi
    split
    · exact .inl rfl
    · exact .inr ⟨c, rfl⟩
  rw [C100_matches_partial (simple_text hp) s (.inr hlit), simple_matches]
  intro neg rs hm
  rcases hlit _ hm with h | ⟨b, h⟩ <;> cases h

/-- **C92** what holds, for the code as it is: a pattern without special characters, in particular any WAMP pattern, matches nothing but
itself. -/
theorem C92_code_partial (p s : Str) (hp : Plain p) : wildcardMatch s p = true ↔ s = p := Wildcard.C92_plain_partial C92_documented p s hp

example : Plain (str "com..create") ∧ wildcardMatch (str "com..create") (str "com..create") = true ∧
    wildcardMatch (str "com.user.create") (str "com..create") = false ∧ wildcardMatch (str "com.user.x.create") (str "com.*.create") = true :=
  ⟨⟨by decide +kernel, by decide +kernel⟩, by decide +kernel, by decide +kernel, by decide +kernel⟩

end Wamp.PathMatch
