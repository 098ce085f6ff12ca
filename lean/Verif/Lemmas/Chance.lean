import Verif.Lemmas.Router
/-!
# Orders of iteration
-/
namespace Wamp

theorem perm_of_nodup {α : Type} : ∀ {l l' : List α}, l.Nodup → l'.Nodup → (∀ x, x ∈ l ↔ x ∈ l') → l.Perm l'
  | [], l', _, _, h => by
    cases l' with
    | nil => exact List.Perm.refl _
    | cons y l' => exact absurd ((h y).2 (List.mem_cons_self ..)) (by simp)
  | x :: l, l', hn, hn', h => by
    obtain ⟨s, t, rfl⟩ := List.append_of_mem ((h x).1 (List.mem_cons_self ..))
    rw [List.nodup_cons] at hn
    have hp : (s ++ x :: t).Perm (x :: (s ++ t)) := List.perm_middle
    have hn2 : (x :: (s ++ t)).Nodup := (hp.nodup_iff).1 hn'
    rw [List.nodup_cons] at hn2
    refine (List.Perm.cons x (perm_of_nodup hn.2 hn2.2 fun y => ?_)).trans hp.symm
    constructor
    · intro hy
      have : y ∈ x :: (s ++ t) := hp.mem_iff.1 ((h y).1 (List.mem_cons_of_mem _ hy))
      rcases List.mem_cons.1 this with rfl | h2
      · exact absurd hy hn.1
      · exact h2
    · intro hy
      have : y ∈ x :: l := (h y).2 (hp.mem_iff.2 (List.mem_cons_of_mem _ hy))
      rcases List.mem_cons.1 this with rfl | h2
      · exact absurd hy hn2.1
      · exact h2

theorem arrange_perm {K : Type} [DecidableEq K] (o o' : List K) {ks : List K} (h : ks.Nodup) : (arrange o ks).Perm (arrange o' ks) :=
  perm_of_nodup (nodup_arrange o h) (nodup_arrange o' h) fun k => by rw [mem_arrange, mem_arrange]

theorem FMap.del_comm {K V : Type} [DecidableEq K] (m : FMap K V) (k k' : K) : (m.del k).del k' = (m.del k').del k := by
  funext x
  simp only [FMap.del]
  split <;> split <;> rfl

theorem AMap.del_comm {K V : Type} [DecidableEq K] : ∀ (m : AMap K V) (k k' : K), (m.del k).del k' = (m.del k').del k
  | [], _, _ => rfl
  | (x, v) :: m, k, k' => by
    have ih := AMap.del_comm m k k'
    by_cases h : k = x <;> by_cases h' : k' = x <;> simp [AMap.del, h, h', ih]
    · subst h; exact ih
    · subst h'; exact ih

theorem hset_comm {α : Type} (f : Nat → α) {a a' : Nat} (h : a ≠ a') (x x' : α) : hset (hset f a x) a' x' = hset (hset f a' x') a x := by
  funext y
  simp only [hset]
  split <;> split <;> first | rfl | (rename_i h1 h2; exact absurd (h2.symm.trans h1) h) 

theorem ite_comm2 {α : Type} (c c' : Prop) [Decidable c] [Decidable c'] (f g : α → α) (h : ∀ x, g (f x) = f (g x)) (x : α) :
    (if c' then g (if c then f x else x) else (if c then f x else x)) = (if c then f (if c' then g x else x) else (if c' then g x else x)) := by
  split <;> split <;> first | rfl | exact h x

/-- At most one pattern matches: the order does not matter. -/
theorem firstWildcard_order {V : Type} {w : Str → Str → Bool} (o o' : List Str) {wc : AMap Str V} {u : Str}
    (h : ∀ k ∈ wc.keys, ∀ k' ∈ wc.keys, w u k = true → w u k' = true → k = k') : firstWildcard w o wc u = firstWildcard w o' wc u := by
  have find : (arrange o wc.keys).find? (fun p => w u p) = (arrange o' wc.keys).find? (fun p => w u p) := by
    cases h1 : (arrange o wc.keys).find? (fun p => w u p) with
    | none =>
      cases h2 : (arrange o' wc.keys).find? (fun p => w u p) with
      | none => rfl
      | some k' =>
        rw [List.find?_eq_none] at h1
        have hm := (mem_arrange o' wc.keys k').1 (List.mem_of_find?_eq_some h2)
        exact absurd (List.find?_some h2) (h1 k' ((mem_arrange o wc.keys k').2 hm))
    | some k =>
      have hm := (mem_arrange o wc.keys k).1 (List.mem_of_find?_eq_some h1)
      cases h2 : (arrange o' wc.keys).find? (fun p => w u p) with
      | none =>
        rw [List.find?_eq_none] at h2
        exact absurd (List.find?_some h1) (h2 k ((mem_arrange o' wc.keys k).2 hm))
      | some k' =>
        have hm' := (mem_arrange o' wc.keys k').1 (List.mem_of_find?_eq_some h2)
        rw [h k hm k' hm' (List.find?_some h1) (List.find?_some h2)]
  simp only [firstWildcard, find]

end Wamp
