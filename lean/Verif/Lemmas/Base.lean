import Verif.Model.Base
/-!
# Lemmas about maps that are iterated over
-/
namespace Wamp

namespace AMap
variable {K V : Type} [DecidableEq K]

theorem mem_keys (m : AMap K V) (k : K) : k ∈ m.keys ↔ (m.get k).isSome := by
  induction m with
  | nil => simp [keys, get]
  | cons e m ih =>
    rcases e with ⟨k', v⟩
    have : k ∈ keys ((k', v) :: m) ↔ k = k' ∨ k ∈ keys m := by simp [keys]
    rw [this, ih]
    by_cases h : k = k' <;> simp [get, h]

theorem get_mem {m : AMap K V} {k : K} {v : V} (h : m.get k = some v) : (k, v) ∈ m := by
  induction m with
  | nil => simp [get] at h
  | cons e m ih =>
    rcases e with ⟨k', v'⟩
    simp only [get] at h
    split at h
    · simp_all
    · exact List.mem_cons_of_mem _ (ih h)

theorem get_set (m : AMap K V) (k k' : K) (v : V) : (m.set k v).get k' = if k' = k then some v else m.get k' := by
  induction m with
  | nil => simp [set, get]
  | cons e m ih =>
    rcases e with ⟨k0, v0⟩
    by_cases h : k = k0
    · subst h
      by_cases h' : k' = k <;> simp [set, get, h']
    · by_cases h' : k' = k0
      · subst h'
        have : k' ≠ k := fun e => h e.symm
        simp [set, get, h, this]
      · by_cases h2 : k' = k
        · subst h2; simp only [set, if_neg h, get, if_neg h', ih]
        · simp only [set, if_neg h, get, if_neg h', ih]

theorem get_del (m : AMap K V) (k k' : K) : (m.del k).get k' = if k' = k then none else m.get k' := by
  induction m with
  | nil => simp [del, get]
  | cons e m ih =>
    rcases e with ⟨k0, v0⟩
    by_cases h : k = k0
    · subst h
      by_cases h' : k' = k
      · subst h'; simp only [del, if_true, ih]
      · simp only [del, if_true, ih, get, if_neg h']
    · by_cases h' : k' = k0
      · subst h'
        have : k' ≠ k := fun e => h e.symm
        simp [del, get, h, this]
      · simp only [del, if_neg h, get, if_neg h', ih]

theorem keys_set (m : AMap K V) (k : K) (v : V) : (m.set k v).keys = if (m.get k).isSome then m.keys else m.keys ++ [k] := by
  induction m with
  | nil => simp [set, keys, get]
  | cons e m ih =>
    rcases e with ⟨k0, v0⟩
    by_cases h : k = k0
    · subst h; simp [set, keys, get]
    · have : (set ((k0, v0) :: m) k v).keys = k0 :: (set m k v).keys := by simp [set, keys, h]
      rw [this, ih]
      have e2 : keys ((k0, v0) :: m : AMap K V) = k0 :: keys m := rfl
      have e3 : get ((k0, v0) :: m) k = get m k := by simp [get, h]
      rw [e2, e3]
      split <;> simp

theorem keys_del (m : AMap K V) (k : K) : (m.del k).keys = m.keys.filter (· ≠ k) := by
  induction m with
  | nil => rfl
  | cons e m ih =>
    rcases e with ⟨k0, v0⟩
    have e2 : keys ((k0, v0) :: m : AMap K V) = k0 :: keys m := rfl
    by_cases h : k = k0
    · subst h; simp only [del, if_true, ih, e2]; simp
    · have : (del ((k0, v0) :: m) k).keys = k0 :: (del m k).keys := by simp [del, keys, h]
      have h' : k0 ≠ k := fun e => h e.symm
      rw [this, ih, e2]; simp [h']

theorem nodup_set {m : AMap K V} (h : m.keys.Nodup) (k : K) (v : V) : (m.set k v).keys.Nodup := by
  rw [keys_set]
  split
  · exact h
  · rename_i hn
    rw [List.nodup_append]
    refine ⟨h, by simp, ?_⟩
    intro a ha b hb
    simp only [List.mem_singleton] at hb
    subst hb
    rintro rfl
    exact hn ((mem_keys m a).1 ha)

theorem nodup_del {m : AMap K V} (h : m.keys.Nodup) (k : K) : (m.del k).keys.Nodup := by
  rw [keys_del]; exact h.filter _

theorem get_of_mem {m : AMap K V} (hn : m.keys.Nodup) {k : K} {v : V} (h : (k, v) ∈ m) : m.get k = some v := by
  induction m with
  | nil => cases h
  | cons e m ih =>
    rcases e with ⟨k0, v0⟩
    have e2 : keys ((k0, v0) :: m : AMap K V) = k0 :: keys m := rfl
    rw [e2, List.nodup_cons] at hn
    rcases List.mem_cons.1 h with h1 | h1
    · cases h1; simp [get]
    · have : k ≠ k0 := by
        rintro rfl
        exact hn.1 (List.mem_map.2 ⟨(k, v), h1, rfl⟩)
      simp [get, this, ih hn.2 h1]

theorem isEmpty_iff (m : AMap K V) : m.isEmpty = true ↔ ∀ k, m.get k = none := by
  cases m with
  | nil => simp [get]
  | cons e m => rcases e with ⟨k, v⟩; simp; exact ⟨k, by simp [get]⟩
end AMap

section arrange
variable {K : Type} [DecidableEq K]

theorem mem_arrange (order ks : List K) (k : K) : k ∈ arrange order ks ↔ k ∈ ks := by
  simp only [arrange, List.mem_append, List.mem_filter, List.mem_eraseDups, List.contains_iff_mem, Bool.not_eq_true',
    List.contains_eq_mem, decide_eq_false_iff_not, decide_eq_true_eq]
  by_cases h : k ∈ order <;> simp [h]

theorem nodup_eraseDups {α : Type} [DecidableEq α] : ∀ (n : Nat) (l : List α), l.length ≤ n → l.eraseDups.Nodup
  | _, [], _ => by simp
  | 0, a :: l, h => by simp at h
  | n + 1, a :: l, h => by
    rw [List.eraseDups_cons, List.nodup_cons]
    refine ⟨by simp [List.mem_eraseDups], nodup_eraseDups n _ ?_⟩
    have := List.length_filter_le (fun b => !b == a) l
    simp only [List.length_cons] at h
    omega

/-- Whatever the choice, each key is visited exactly once. -/
theorem nodup_arrange (order : List K) {ks : List K} (h : ks.Nodup) : (arrange order ks).Nodup := by
  rw [arrange, List.nodup_append]
  refine ⟨(nodup_eraseDups _ order (Nat.le_refl _)).filter _, h.filter _, ?_⟩
  intro a ha b hb
  simp only [List.mem_filter, List.mem_eraseDups, List.contains_iff_mem, Bool.not_eq_true', List.contains_eq_mem,
    decide_eq_false_iff_not, decide_eq_true_eq] at ha hb
  rintro rfl
  exact hb.2 ha.1

theorem eraseDups_of_nodup : ∀ (l : List K), l.Nodup → l.eraseDups = l
  | [], _ => by simp
  | a :: l, h => by
    rw [List.nodup_cons] at h
    rw [List.eraseDups_cons]
    have : l.filter (fun b => !b == a) = l := by
      rw [List.filter_eq_self]
      intro b hb
      have : b ≠ a := fun e => h.1 (e ▸ hb)
      simpa using this
    rw [this, eraseDups_of_nodup l h.2]

/-- Every order in which the keys can be visited is possible. -/
theorem arrange_all {order ks : List K} (h : order.Nodup) (hm : ∀ k, k ∈ order ↔ k ∈ ks) : arrange order ks = order := by
  have h1 : order.filter (fun k => ks.contains k) = order := by
    rw [List.filter_eq_self]
    intro a ha
    simpa using (hm a).1 ha
  have h2 : ks.filter (fun k => !order.contains k) = [] := by
    rw [List.filter_eq_nil_iff]
    intro a ha
    simpa using (hm a).2 ha
  rw [arrange, eraseDups_of_nodup _ h, h1, h2, List.append_nil]
end arrange

end Wamp
