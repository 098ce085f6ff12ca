import Verif.Model.Strconv
import Verif.Spec.Float
/-!
# Rounding and shortest decimals
-/
namespace Wamp.Strconv

/-- The `m * 2 ^ e` that are floats: a multiple of the smallest one, with at most `mb + 1` digits, and as many unless the exponent is the lowest. -/
def IsFloat (eb mb m : Nat) (e : Int) : Prop :=
  ∃ j : Nat, j ≤ 2 ^ eb - 3 ∧ e = (j : Int) - lowest eb mb ∧ m < 2 ^ (mb + 1) ∧ (m < 2 ^ mb → j = 0)

theorem halfEven_cases (q r d : Nat) : (halfEven q r d = q ∧ 2 * r ≤ d) ∨ (halfEven q r d = q + 1 ∧ d ≤ 2 * r) := by
  unfold halfEven
  split
  · exact .inl ⟨rfl, by omega⟩
  · split
    · exact .inr ⟨rfl, by omega⟩
    · split
      · exact .inl ⟨rfl, by omega⟩
      · exact .inr ⟨rfl, by omega⟩

theorem halfEven_zero (q d : Nat) (h : 0 < d) : halfEven q 0 d = q := by
  unfold halfEven; rw [if_pos (by omega)]

theorem two_pow_pos (n : Nat) : 0 < 2 ^ n := Nat.pow_pos (by decide)

theorem halfEven_div {q r d : Nat} : halfEven q r d = q ∨ halfEven q r d = q + 1 := by
  rcases halfEven_cases q r d with h | h <;> simp [h.1]

/-- The scale that `round` uses. -/
theorem round_scale {mb a den s : Nat} (hs : Nat.log2 (a / den) - mb = s) :
    a / (den * 2 ^ s) < 2 ^ (mb + 1) ∧ (0 < s → 2 ^ mb ≤ a / (den * 2 ^ s)) := by
  rw [← Nat.div_div_eq_div_mul]
  generalize a / den = u at hs
  by_cases hu : u = 0
  · subst hu
    have : s = 0 := by rw [← hs]; simp [Nat.log2_zero]
    subst this
    simp [two_pow_pos]
  have hlo : 2 ^ u.log2 ≤ u := Nat.log2_self_le hu
  have hhi : u < 2 ^ (u.log2 + 1) := Nat.lt_log2_self
  refine ⟨?_, fun h => ?_⟩
  · rw [Nat.div_lt_iff_lt_mul (two_pow_pos s), ← Nat.pow_add]
    exact Nat.lt_of_lt_of_le hhi (Nat.pow_le_pow_right (by decide) (by omega))
  · rw [Nat.le_div_iff_mul_le (two_pow_pos s), ← Nat.pow_add]
    exact Nat.le_trans (Nat.pow_le_pow_right (by decide) (by omega)) hlo

/-- What `round` gives, without the limit: `q'` units of `2 ^ s`. -/
structure Rounded (mb a den : Nat) (q s : Nat) : Prop where
  le : q ≤ 2 ^ (mb + 1)
  ge : 0 < s → 2 ^ mb ≤ q
  near : ∃ q0 r, a = q0 * (den * 2 ^ s) + r ∧ r < den * 2 ^ s ∧ ((q = q0 ∧ 2 * r ≤ den * 2 ^ s) ∨ (q = q0 + 1 ∧ den * 2 ^ s ≤ 2 * r)) ∧ (0 < s → 2 ^ mb ≤ q0)

theorem rounded {mb a den s : Nat} (hd : 0 < den) (hs : Nat.log2 (a / den) - mb = s) :
    Rounded mb a den (halfEven (a / (den * 2 ^ s)) (a % (den * 2 ^ s)) (den * 2 ^ s)) s := by
  obtain ⟨h1, h2⟩ := round_scale hs
  have hP : 0 < den * 2 ^ s := Nat.mul_pos hd (two_pow_pos s)
  refine ⟨?_, fun h => ?_, ⟨_, _, (Nat.div_add_mod' a _).symm, Nat.mod_lt _ hP, halfEven_cases _ _ _, h2⟩⟩
  · rcases @halfEven_div (a / (den * 2 ^ s)) (a % (den * 2 ^ s)) (den * 2 ^ s) with e | e <;> rw [e] <;> omega
  · have := h2 h
    rcases @halfEven_div (a / (den * 2 ^ s)) (a % (den * 2 ^ s)) (den * 2 ^ s) with e | e <;> rw [e] <;> omega

theorem dist_far (q r P v : Nat) (hr : r ≤ P) (hv : v ≤ q * P ∨ (q + 1) * P ≤ v) :
    (r : Int) ≤ ((q * P + r : Nat) - (v : Int)).natAbs ∨ ((P - r : Nat) : Int) ≤ ((q * P + r : Nat) - (v : Int)).natAbs := by
  rcases hv with hv | hv
  · left; omega
  · right
    rw [Nat.add_mul, Nat.one_mul] at hv
    omega

/-- No other number with that many digits is nearer. -/
theorem Rounded.nearest {mb a den q s : Nat} (h : Rounded mb a den q s) (m j : Nat) (hm : m < 2 ^ (mb + 1)) :
    ((a : Int) - (q * 2 ^ s * den : Nat)).natAbs ≤ ((a : Int) - (m * 2 ^ j * den : Nat)).natAbs := by
  obtain ⟨q0, r, e, hr, hq, hge⟩ := h.near
  have hcand : m * 2 ^ j * den ≤ q0 * (den * 2 ^ s) ∨ (q0 + 1) * (den * 2 ^ s) ≤ m * 2 ^ j * den := by
    rcases Nat.lt_or_ge j s with hj | hj
    · left
      have h1 : m * 2 ^ j ≤ 2 ^ (mb + 1) * 2 ^ (s - 1) := Nat.mul_le_mul (by omega) (Nat.pow_le_pow_right (by decide) (by omega))
      have h2 : 2 ^ (mb + 1) * 2 ^ (s - 1) = 2 ^ mb * 2 ^ s := by
        rw [← Nat.pow_add, ← Nat.pow_add]; congr 1; omega
      rw [h2] at h1
      have h3 : m * 2 ^ j ≤ q0 * 2 ^ s := Nat.le_trans h1 (Nat.mul_le_mul_right _ (hge (by omega)))
      rw [Nat.mul_comm den, ← Nat.mul_assoc]
      exact Nat.mul_le_mul_right _ h3
    · have e2 : m * 2 ^ j * den = m * 2 ^ (j - s) * (den * 2 ^ s) := by
        rw [show 2 ^ j = 2 ^ (j - s) * 2 ^ s by rw [← Nat.pow_add]; congr 1; omega]
        ac_rfl
      rw [e2]
      rcases Nat.lt_or_ge q0 (m * 2 ^ (j - s)) with h | h
      · exact .inr (Nat.mul_le_mul_right _ h)
      · exact .inl (Nat.mul_le_mul_right _ h)
  have e3 : q * 2 ^ s * den = q * (den * 2 ^ s) := by ac_rfl
  rw [e, e3]
  generalize den * 2 ^ s = P at *
  rcases dist_far q0 r P _ (by omega) hcand with h1 | h1 <;> rcases hq with ⟨rfl, h2⟩ | ⟨rfl, h2⟩
  · omega
  · rw [Nat.add_mul, Nat.one_mul]; omega
  · omega
  · rw [Nat.add_mul, Nat.one_mul]; omega

theorem round_some {eb mb num den m : Nat} {e : Int} (h : round eb mb num den = some (m, e)) :
    ∃ q s, q = halfEven (num * 2 ^ lowest eb mb / (den * 2 ^ s)) (num * 2 ^ lowest eb mb % (den * 2 ^ s)) (den * 2 ^ s) ∧
      Nat.log2 (num * 2 ^ lowest eb mb / den) - mb = s ∧
      ((q ≠ 2 ^ (mb + 1) ∧ m = q ∧ e = (s : Int) - lowest eb mb ∧ s ≤ 2 ^ eb - 3) ∨
       (q = 2 ^ (mb + 1) ∧ m = 2 ^ mb ∧ e = ((s + 1 : Nat) : Int) - lowest eb mb ∧ s + 1 ≤ 2 ^ eb - 3)) := by
  unfold round at h
  simp only at h
  refine ⟨_, _, rfl, rfl, ?_⟩
  have lim : ∀ m' s', limited eb mb m' s' = some (m, e) → m = m' ∧ e = (s' : Int) - lowest eb mb ∧ s' ≤ 2 ^ eb - 3 := by
    intro m' s' h
    unfold limited at h
    split at h
    · rename_i hle; cases h; exact ⟨rfl, rfl, hle⟩
    · cases h
  split at h
  · rename_i hq
    exact .inr ⟨hq, lim _ _ h⟩
  · rename_i hq
    exact .inl ⟨hq, lim _ _ h⟩

/-- The result is a float, and no float is nearer to `num / den`.  All floats are multiples of the smallest one; distances are in these units, times `den`. -/
theorem round_nearest {eb mb num den m : Nat} {e : Int} (hd : 0 < den) (h : round eb mb num den = some (m, e)) :
    IsFloat eb mb m e ∧ ∀ m' e', IsFloat eb mb m' e' →
      ((num * 2 ^ lowest eb mb : Nat) - (m * 2 ^ (e + lowest eb mb).toNat * den : Nat) : Int).natAbs ≤
        ((num * 2 ^ lowest eb mb : Nat) - (m' * 2 ^ (e' + lowest eb mb).toNat * den : Nat) : Int).natAbs := by
  obtain ⟨q, s, hq, hs, hc⟩ := round_some h
  have hr := rounded hd hs
  rw [← hq] at hr
  have hval : m * 2 ^ (e + lowest eb mb).toNat = q * 2 ^ s := by
    rcases hc with ⟨-, rfl, rfl, -⟩ | ⟨rfl, rfl, rfl, -⟩
    · rw [Int.sub_add_cancel, Int.toNat_natCast]
    · rw [Int.sub_add_cancel, Int.toNat_natCast, ← Nat.pow_add, ← Nat.pow_add]; congr 1; omega
  constructor
  · rcases hc with ⟨hne, rfl, rfl, hle⟩ | ⟨rfl, rfl, rfl, hle⟩
    · refine ⟨s, hle, rfl, by have := hr.le; omega, fun hm => ?_⟩
      have := hr.ge
      omega
    · exact ⟨s + 1, hle, rfl, by rw [Nat.pow_succ]; have := two_pow_pos mb; omega, fun hm => absurd hm (by omega)⟩
  · rintro m' e' ⟨j, -, rfl, hm', -⟩
    rw [hval, Int.sub_add_cancel, Int.toNat_natCast]
    exact hr.nearest m' j hm'

/-- A float is read as itself. -/
theorem round_exact {eb mb num den m : Nat} {e : Int} (hd : 0 < den) (hf : IsFloat eb mb m e)
    (hv : num * 2 ^ lowest eb mb = m * 2 ^ (e + lowest eb mb).toNat * den) : round eb mb num den = some (m, e) := by
  obtain ⟨j, hj, rfl, hm, h0⟩ := hf
  rw [Int.sub_add_cancel, Int.toNat_natCast] at hv
  have hs : Nat.log2 (num * 2 ^ lowest eb mb / den) - mb = j := by
    rw [hv, Nat.mul_div_cancel _ hd]
    by_cases hlt : m < 2 ^ mb
    · rw [h0 hlt, Nat.pow_zero, Nat.mul_one]
      by_cases hz : m = 0
      · subst hz; simp [Nat.log2_zero]
      · have := (Nat.log2_lt hz).2 hlt; omega
    · have hz : m ≠ 0 := by have := two_pow_pos mb; omega
      have hz2 : m * 2 ^ j ≠ 0 := Nat.mul_ne_zero hz (by have := two_pow_pos j; omega)
      have h1 : mb + j ≤ (m * 2 ^ j).log2 := (Nat.le_log2 hz2).2 (by rw [Nat.pow_add]; exact Nat.mul_le_mul_right _ (by omega))
      have h2 : (m * 2 ^ j).log2 < mb + 1 + j := (Nat.log2_lt hz2).2 (by rw [Nat.pow_add]; exact Nat.mul_lt_mul_of_pos_right hm (two_pow_pos j))
      omega
  unfold round
  simp only [hs]
  have hP : 0 < den * 2 ^ j := Nat.mul_pos hd (two_pow_pos j)
  have e1 : m * 2 ^ j * den = m * (den * 2 ^ j) := by ac_rfl
  rw [hv, e1, Nat.mul_div_cancel _ hP, Nat.mul_mod_left, halfEven_zero _ _ hP, if_neg (by omega), limited, if_pos hj]

theorem strip_pos (n d : Nat) (t : Int) (hd : 0 < d) (h : d ≤ n) : 0 < (strip n d t).1 := by
  induction n generalizing d t with
  | zero => omega
  | succ n ih =>
    rw [strip]
    split
    · exact ih _ _ (by omega) (by omega)
    · exact hd

theorem reads_some {eb mb m : Nat} {e : Int} {d : Nat} {t : Int} {c : Nat × Int} (h : reads eb mb m e d t = some c) :
    0 < c.1 ∧ ofDecimal eb mb c.1 c.2 = some (m, e) := by
  unfold reads at h
  simp only at h
  split at h
  · rename_i hh; cases h; exact ⟨by omega, hh.2⟩
  · cases h

theorem tryDigits_some {eb mb m : Nat} {e : Int} {p : Nat} {c : Nat × Int} (h : tryDigits eb mb m e p = some c) :
    0 < c.1 ∧ ofDecimal eb mb c.1 c.2 = some (m, e) := by
  unfold tryDigits at h
  simp only at h
  split at h
  · rename_i hh; cases h; exact reads_some hh
  · exact reads_some h

/-- The shortest decimal is read as the float. -/
theorem shortest_reads {eb mb m : Nat} {e : Int} (hm : m ≠ 0) (hf : IsFloat eb mb m e) :
    0 < (shortest eb mb m e).1 ∧ ofDecimal eb mb (shortest eb mb m e).1 (shortest eb mb m e).2 = some (m, e) := by
  unfold shortest
  split
  · rename_i c hc
    obtain ⟨p, -, hp⟩ := List.exists_of_findSome?_eq_some hc
    exact tryDigits_some hp
  · split
    · rename_i he
      refine ⟨Nat.mul_pos (by omega) (two_pow_pos _), ?_⟩
      show round eb mb (m * 2 ^ e.toNat * 1) 1 = _
      refine round_exact (by decide) hf ?_
      simp only [Nat.mul_one]
      rw [Nat.mul_assoc, ← Nat.pow_add]
      congr 2
      omega
    · rename_i he
      refine ⟨Nat.mul_pos (by omega) (Nat.pow_pos (by decide)), ?_⟩
      show round eb mb (m * 5 ^ (-e).toNat * 10 ^ e.toNat) (10 ^ (-e).toNat) = _
      refine round_exact (Nat.pow_pos (by decide)) hf ?_
      obtain ⟨j, -, rfl, -, -⟩ := hf
      rw [show ((j : Int) - lowest eb mb).toNat = 0 by omega, Nat.pow_zero, Nat.mul_one]
      generalize hk : (-((j : Int) - lowest eb mb)).toNat = k
      rw [Int.sub_add_cancel, Int.toNat_natCast, show lowest eb mb = j + k by omega, Nat.pow_add, show (10 : Nat) = 2 * 5 from rfl, Nat.mul_pow]
      ac_rfl

/-! ### Which numbers are rounded to which float -/

theorem halfEven_odd {q r d : Nat} (h : halfEven q r d % 2 = 1) :
    (halfEven q r d = q ∧ 2 * r < d) ∨ (halfEven q r d = q + 1 ∧ d < 2 * r) := by
  unfold halfEven at h ⊢
  split at h
  · rename_i h1; rw [if_pos h1]; exact .inl ⟨rfl, h1⟩
  · rename_i h1
    split at h
    · rename_i h2; rw [if_neg h1, if_pos h2]; exact .inr ⟨rfl, h2⟩
    · split at h
      · omega
      · omega

/-- All other floats are farther away than one with an odd mantissa. -/
theorem round_odd {eb mb num den m : Nat} {e : Int} (hd : 0 < den) (h : round eb mb num den = some (m, e)) (ho : m % 2 = 1) (hmb : 0 < mb)
    {m' : Nat} {e' : Int} (hf : IsFloat eb mb m' e') (hne : m' * 2 ^ (e' + lowest eb mb).toNat ≠ m * 2 ^ (e + lowest eb mb).toNat) :
    ((num * 2 ^ lowest eb mb : Nat) - (m * 2 ^ (e + lowest eb mb).toNat * den : Nat) : Int).natAbs <
        ((num * 2 ^ lowest eb mb : Nat) - (m' * 2 ^ (e' + lowest eb mb).toNat * den : Nat) : Int).natAbs := by
  obtain ⟨q, s, hq, hs, hc⟩ := round_some h
  have hev : 2 ^ mb % 2 = 0 := by
    obtain ⟨k, rfl⟩ : ∃ k, mb = k + 1 := ⟨mb - 1, by omega⟩
    rw [Nat.pow_succ]; omega
  rcases hc with ⟨hqn, rfl, rfl, -⟩ | ⟨-, rfl, -, -⟩
  case inr => omega
  have hr := rounded hd hs
  have hodd := halfEven_odd (show _ = 1 by rw [← hq]; exact ho)
  rw [← hq] at hr hodd
  obtain ⟨j, -, rfl, hm', -⟩ := hf
  rw [Int.sub_add_cancel, Int.toNat_natCast, Int.sub_add_cancel, Int.toNat_natCast] at *
  have hP : 0 < den * 2 ^ s := Nat.mul_pos hd (two_pow_pos s)
  have e0 := Nat.div_add_mod' (num * 2 ^ lowest eb mb) (den * 2 ^ s)
  have hrl := Nat.mod_lt (num * 2 ^ lowest eb mb) hP
  generalize num * 2 ^ lowest eb mb / (den * 2 ^ s) = q0 at *
  generalize num * 2 ^ lowest eb mb % (den * 2 ^ s) = r at *
  have hcand : m' * 2 ^ j * den + den * 2 ^ s ≤ m * (den * 2 ^ s) ∨ (m + 1) * (den * 2 ^ s) ≤ m' * 2 ^ j * den := by
    rcases Nat.lt_or_ge j s with hj | hj
    · left
      have h1 : m' * 2 ^ j ≤ 2 ^ (mb + 1) * 2 ^ (s - 1) := Nat.mul_le_mul (by omega) (Nat.pow_le_pow_right (by decide) (by omega))
      have h2 : 2 ^ (mb + 1) * 2 ^ (s - 1) = 2 ^ mb * 2 ^ s := by
        rw [← Nat.pow_add, ← Nat.pow_add]; congr 1; omega
      rw [h2] at h1
      have h4 := hr.ge (by omega)
      have h3 : m' * 2 ^ j + 2 ^ s ≤ m * 2 ^ s := by
        have : (2 ^ mb + 1) * 2 ^ s ≤ m * 2 ^ s := Nat.mul_le_mul_right _ (by omega)
        rw [Nat.add_mul, Nat.one_mul] at this
        omega
      have := Nat.mul_le_mul_right den h3
      rw [Nat.add_mul] at this
      rw [show m * (den * 2 ^ s) = m * 2 ^ s * den by ac_rfl, Nat.mul_comm den]
      exact this
    · have e2 : m' * 2 ^ j = m' * 2 ^ (j - s) * 2 ^ s := by
        rw [show 2 ^ j = 2 ^ (j - s) * 2 ^ s by rw [← Nat.pow_add]; congr 1; omega]
        ac_rfl
      rw [e2] at hne ⊢
      rw [show m' * 2 ^ (j - s) * 2 ^ s * den = m' * 2 ^ (j - s) * (den * 2 ^ s) by ac_rfl]
      have hne : m' * 2 ^ (j - s) ≠ m := fun h => hne (by rw [h])
      rcases Nat.lt_or_ge (m' * 2 ^ (j - s)) m with h | h
      · left
        have := Nat.mul_le_mul_right (den * 2 ^ s) (show m' * 2 ^ (j - s) + 1 ≤ m from h)
        rw [Nat.add_mul, Nat.one_mul] at this
        exact this
      · right
        exact Nat.mul_le_mul_right _ (by omega)
  rw [show m * 2 ^ s * den = m * (den * 2 ^ s) by ac_rfl, ← e0]
  generalize den * 2 ^ s = P at *
  generalize m' * 2 ^ j * den = c at *
  rw [Nat.add_mul, Nat.one_mul] at hcand
  rcases hodd with ⟨rfl, h1⟩ | ⟨rfl, h1⟩
  · generalize m * P = mP at *
    omega
  · rw [Nat.add_mul, Nat.one_mul] at *
    generalize q0 * P = mP at *
    omega

/-- Floats have one representation. -/
theorem IsFloat.unique {eb mb m m' : Nat} {e e' : Int} (h : IsFloat eb mb m e) (h' : IsFloat eb mb m' e')
    (hv : m * 2 ^ (e + lowest eb mb).toNat = m' * 2 ^ (e' + lowest eb mb).toNat) : m = m' ∧ e = e' := by
  have key : ∀ {m m' j j' : Nat}, m < 2 ^ (mb + 1) → m' < 2 ^ (mb + 1) → (m < 2 ^ mb → j = 0) → (m' < 2 ^ mb → j' = 0) → m * 2 ^ j = m' * 2 ^ j' →
      ¬ j < j' := by
    intro m m' j j' hm hm' h0 h0' hv hlt
    have h1 : 2 ^ mb ≤ m' := Nat.le_of_not_lt fun h => by have := h0' h; omega
    have h2 : m = m' * 2 ^ (j' - j) := by
      apply Nat.eq_of_mul_eq_mul_right (two_pow_pos j)
      rw [hv, Nat.mul_assoc, ← Nat.pow_add, Nat.sub_add_cancel (by omega)]
    have h3 : 2 ^ 1 ≤ 2 ^ (j' - j) := Nat.pow_le_pow_right (by decide) (by omega)
    have h4 := Nat.mul_le_mul h1 h3
    rw [← Nat.pow_add] at h4
    omega
  obtain ⟨j, -, rfl, hm, h0⟩ := h
  obtain ⟨j', -, rfl, hm', h0'⟩ := h'
  rw [Int.sub_add_cancel, Int.toNat_natCast, Int.sub_add_cancel, Int.toNat_natCast] at hv
  have n1 := key hm hm' h0 h0' hv
  have n2 := key hm' hm h0' h0 hv.symm
  have hj : j = j' := by omega
  subst hj
  exact ⟨Nat.eq_of_mul_eq_mul_right (two_pow_pos j) hv, rfl⟩

theorem limited_none {eb mb m s : Nat} : limited eb mb m s = none ↔ 2 ^ eb - 3 < s := by
  unfold limited
  split
  · simp; omega
  · simp; omega

/-- Which numbers are too large. -/
theorem round_none {eb mb num den : Nat} (hd : 0 < den) (heb : 2 ≤ eb) :
    round eb mb num den = none ↔ (2 ^ (mb + 2) - 1) * (den * 2 ^ (2 ^ eb - 3)) ≤ 2 * (num * 2 ^ lowest eb mb) := by
  have h4 : 2 ^ 2 ≤ 2 ^ eb := Nat.pow_le_pow_right (by decide) heb
  unfold round
  simp only
  generalize num * 2 ^ lowest eb mb = a
  generalize hs : Nat.log2 (a / den) - mb = s
  obtain ⟨g1, g2⟩ := round_scale hs
  generalize hS : 2 ^ eb - 3 = S
  have hP : 0 < den * 2 ^ s := Nat.mul_pos hd (two_pow_pos s)
  have e0 := Nat.div_add_mod' a (den * 2 ^ s)
  have hrl := Nat.mod_lt a hP
  have hr := rounded hd hs
  generalize hq0 : a / (den * 2 ^ s) = q0 at *
  generalize a % (den * 2 ^ s) = r at *
  generalize hQ : halfEven q0 r (den * 2 ^ s) = q at *
  have hpp : 2 ^ (mb + 2) = 2 * 2 ^ (mb + 1) := by rw [Nat.pow_succ]; omega
  have hpp1 : 2 ^ (mb + 1) = 2 * 2 ^ mb := by rw [Nat.pow_succ]; omega
  have hmb := two_pow_pos mb
  have hlt : a < 2 ^ (mb + 1) * (den * 2 ^ s) := by
    have := Nat.mul_le_mul_right (den * 2 ^ s) (show q0 + 1 ≤ 2 ^ (mb + 1) from g1)
    rw [Nat.add_mul, Nat.one_mul] at this
    omega
  rcases Nat.lt_trichotomy s S with h | h | h
  · -- small
    have hno : (if q = 2 ^ (mb + 1) then limited eb mb (2 ^ mb) (s + 1) else limited eb mb q s) ≠ none := by
      split
      · rw [Ne, limited_none, hS]; omega
      · rw [Ne, limited_none, hS]; omega
    refine ⟨fun h => absurd h hno, fun hle => ?_⟩
    exfalso
    have e1 : den * 2 ^ S = den * 2 ^ s * 2 ^ (S - s) := by rw [Nat.mul_assoc, ← Nat.pow_add]; congr 2; omega
    have e2 : 2 ^ 1 ≤ 2 ^ (S - s) := Nat.pow_le_pow_right (by decide) (by omega)
    have e3 : den * 2 ^ s * 2 ^ 1 ≤ den * 2 ^ S := by rw [e1]; exact Nat.mul_le_mul_left _ e2
    have e4 := Nat.mul_le_mul_left (2 ^ (mb + 2) - 1) e3
    rw [show (2 ^ (mb + 2) - 1) * (den * 2 ^ s * 2 ^ 1) = (2 * (2 ^ (mb + 2) - 1)) * (den * 2 ^ s) by rw [Nat.pow_one]; ac_rfl] at e4
    have e5 : 2 * 2 ^ (mb + 1) * (den * 2 ^ s) ≤ (2 * (2 ^ (mb + 2) - 1)) * (den * 2 ^ s) := Nat.mul_le_mul_right _ (by omega)
    rw [Nat.mul_assoc 2 (2 ^ (mb + 1))] at e5
    omega
  · subst h
    have : (if q = 2 ^ (mb + 1) then limited eb mb (2 ^ mb) (s + 1) else limited eb mb q s) = none ↔ q = 2 ^ (mb + 1) := by
      split
      · rw [limited_none, hS]; simp; assumption
      · rw [limited_none, hS]; simp; assumption
    rw [this]
    generalize den * 2 ^ s = P at *
    have e1 : (2 ^ (mb + 2) - 1) * P = 2 * ((2 ^ (mb + 1) - 1) * P) + P := by
      rw [show 2 ^ (mb + 2) - 1 = 2 * (2 ^ (mb + 1) - 1) + 1 by omega, Nat.add_mul, Nat.one_mul, Nat.mul_assoc]
    rw [e1, ← e0]
    by_cases hq : q0 = 2 ^ (mb + 1) - 1
    · rw [← hq]
      have hodd : q0 % 2 = 1 := by omega
      unfold halfEven at hQ
      generalize q0 * P = x
      split at hQ
      · omega
      · split at hQ
        · omega
        · rw [if_neg (by omega)] at hQ; omega
    · have h1 : (q0 + 1) * P ≤ (2 ^ (mb + 1) - 1) * P := Nat.mul_le_mul_right _ (by omega)
      rw [Nat.add_mul, Nat.one_mul] at h1
      have : q ≠ 2 ^ (mb + 1) := by
        have := @halfEven_div q0 r P
        omega
      omega
  · have : (if q = 2 ^ (mb + 1) then limited eb mb (2 ^ mb) (s + 1) else limited eb mb q s) = none := by
      split
      · rw [limited_none, hS]; omega
      · rw [limited_none, hS]; omega
    refine ⟨fun _ => ?_, fun _ => this⟩
    have h1 := g2 (by omega)
    have h2 : 2 ^ mb * (den * 2 ^ s) ≤ a := by
      have := Nat.mul_le_mul_right (den * 2 ^ s) h1
      omega
    have e1 : den * 2 ^ s = den * 2 ^ S * 2 ^ (s - S) := by rw [Nat.mul_assoc, ← Nat.pow_add]; congr 2; omega
    have e2 : 2 ^ 1 ≤ 2 ^ (s - S) := Nat.pow_le_pow_right (by decide) (by omega)
    have e3 : den * 2 ^ S * 2 ≤ den * 2 ^ s := by rw [e1]; exact Nat.mul_le_mul_left _ e2
    have e4 := Nat.mul_le_mul_left (2 * 2 ^ mb) e3
    have e5 : (2 ^ (mb + 2) - 1) * (den * 2 ^ S) ≤ 2 * 2 ^ mb * 2 * (den * 2 ^ S) := Nat.mul_le_mul_right _ (by omega)
    rw [show 2 * 2 ^ mb * (den * 2 ^ S * 2) = 2 * 2 ^ mb * 2 * (den * 2 ^ S) by ac_rfl,
      show 2 * 2 ^ mb * (den * 2 ^ s) = 2 * (2 ^ mb * (den * 2 ^ s)) by ac_rfl] at e4
    omega

/-- Two floats with even mantissas cannot both be nearest. -/
theorem between {eb mb num den m m1 : Nat} {e e1 : Int} (hd : 0 < den) (hf : IsFloat eb mb m e) (hf1 : IsFloat eb mb m1 e1) (hev : m % 2 = 0)
    (hev1 : m1 % 2 = 0) (hlt : m * 2 ^ (e + lowest eb mb).toNat < m1 * 2 ^ (e1 + lowest eb mb).toNat)
    (heq : ((num * 2 ^ lowest eb mb : Nat) - (m * 2 ^ (e + lowest eb mb).toNat * den : Nat) : Int).natAbs =
      ((num * 2 ^ lowest eb mb : Nat) - (m1 * 2 ^ (e1 + lowest eb mb).toNat * den : Nat) : Int).natAbs)
    (hmin : ∀ m' e', IsFloat eb mb m' e' → ((num * 2 ^ lowest eb mb : Nat) - (m * 2 ^ (e + lowest eb mb).toNat * den : Nat) : Int).natAbs ≤
      ((num * 2 ^ lowest eb mb : Nat) - (m' * 2 ^ (e' + lowest eb mb).toNat * den : Nat) : Int).natAbs) : False := by
  have hf0 := hf
  have hf10 := hf1
  obtain ⟨j, hj, rfl, hm, h0⟩ := hf
  obtain ⟨j1, hj1, rfl, hm1, h01⟩ := hf1
  have hpp1 : 2 ^ (mb + 1) = 2 * 2 ^ mb := by rw [Nat.pow_succ]; omega
  have hn : IsFloat eb mb (m + 1) ((j : Int) - lowest eb mb) := ⟨j, hj, rfl, by omega, fun h => h0 (by omega)⟩
  have h1 := hmin _ _ hn
  have huniq := hf10.unique hn
  simp only [Int.sub_add_cancel, Int.toNat_natCast] at hlt heq h1 huniq
  have hle : (m + 1) * 2 ^ j ≤ m1 * 2 ^ j1 := by
    rcases Nat.lt_or_ge j1 j with hjj | hjj
    · exfalso
      have h1 : m1 * 2 ^ j1 ≤ 2 ^ (mb + 1) * 2 ^ (j - 1) := Nat.mul_le_mul (by omega) (Nat.pow_le_pow_right (by decide) (by omega))
      have h2 : 2 ^ (mb + 1) * 2 ^ (j - 1) = 2 ^ mb * 2 ^ j := by
        rw [← Nat.pow_add, ← Nat.pow_add]; congr 1; omega
      have h3 : 2 ^ mb ≤ m := Nat.le_of_not_lt fun h => by have := h0 h; omega
      have := Nat.mul_le_mul_right (2 ^ j) h3
      omega
    · have e2 : m1 * 2 ^ j1 = m1 * 2 ^ (j1 - j) * 2 ^ j := by
        rw [show 2 ^ j1 = 2 ^ (j1 - j) * 2 ^ j by rw [← Nat.pow_add]; congr 1; omega]
        ac_rfl
      rw [e2] at hlt ⊢
      exact Nat.mul_le_mul_right _ (Nat.lt_of_mul_lt_mul_right hlt)
  have hlt2 : (m + 1) * 2 ^ j < m1 * 2 ^ j1 := by
    rcases Nat.lt_or_eq_of_le hle with h | h
    · exact h
    · have := (huniq h.symm).1; omega
  have g1 := Nat.mul_lt_mul_of_pos_right hlt2 hd
  have g2 : m * 2 ^ j * den < (m + 1) * 2 ^ j * den :=
    Nat.mul_lt_mul_of_pos_right (Nat.mul_lt_mul_of_pos_right (by omega) (two_pow_pos j)) hd
  omega

/-- The floats of 64 bits. -/
theorem isFloat64 (m : Nat) (e : Int) : IsFloat 11 52 m e ↔ Spec.Float64 m e := by
  have hl : lowest 11 52 = 1074 := rfl
  unfold IsFloat Spec.Float64
  rw [hl]
  constructor
  · rintro ⟨j, h1, rfl, h2, h3⟩
    exact ⟨h2, by omega, by omega, fun h => by have := h3 h; omega⟩
  · rintro ⟨h1, h2, h3, h4⟩
    exact ⟨(e + 1074).toNat, by omega, by omega, h1, fun h => by have := h4 h; omega⟩

theorem large64 (num den : Nat) :
    (2 ^ (52 + 2) - 1) * (den * 2 ^ (2 ^ 11 - 3)) ≤ 2 * (num * 2 ^ lowest 11 52) ↔ (2 ^ 1024 - 2 ^ 970) * den ≤ num := by
  have hl : lowest 11 52 = 1074 := rfl
  have h1 : 2 ^ 11 - 3 = 971 + 1074 := rfl
  rw [hl, h1]
  have e1 : (2 ^ (52 + 2) - 1) * (den * 2 ^ (971 + 1074)) = 2 * ((2 ^ 1024 - 2 ^ 970) * den * 2 ^ 1074) := by
    have k1 : 2 ^ 1024 - 2 ^ 970 = (2 ^ (52 + 2) - 1) * 2 ^ 970 := by
      rw [Nat.sub_mul, Nat.one_mul, ← Nat.pow_add]
    have k2 : 2 ^ (971 + 1074) = 2 * (2 ^ 970 * 2 ^ 1074) := by rw [← Nat.pow_add, ← Nat.pow_succ']
    rw [k1, k2]
    generalize 2 ^ 970 = x
    generalize 2 ^ 1074 = y
    generalize 2 ^ (52 + 2) - 1 = z
    ac_rfl
  rw [e1]
  constructor
  · intro h
    exact Nat.le_of_mul_le_mul_right (Nat.le_of_mul_le_mul_left h (by decide)) (two_pow_pos 1074)
  · intro h
    exact Nat.mul_le_mul_left 2 (Nat.mul_le_mul_right _ h)

/-- `round` finds the nearest float with even mantissa, if there is one. -/
theorem round_iff_of {eb mb num den m : Nat} {e : Int} (hd : 0 < den) (heb : 2 ≤ eb) (hmb : 0 < mb) : round eb mb num den = some (m, e) ↔
    IsFloat eb mb m e ∧ ¬ (2 ^ (mb + 2) - 1) * (den * 2 ^ (2 ^ eb - 3)) ≤ 2 * (num * 2 ^ lowest eb mb) ∧ ∀ m' e', IsFloat eb mb m' e' →
      ((num * 2 ^ lowest eb mb : Nat) - (m * 2 ^ (e + lowest eb mb).toNat * den : Nat) : Int).natAbs ≤
        ((num * 2 ^ lowest eb mb : Nat) - (m' * 2 ^ (e' + lowest eb mb).toNat * den : Nat) : Int).natAbs ∧
      (((num * 2 ^ lowest eb mb : Nat) - (m * 2 ^ (e + lowest eb mb).toNat * den : Nat) : Int).natAbs =
        ((num * 2 ^ lowest eb mb : Nat) - (m' * 2 ^ (e' + lowest eb mb).toNat * den : Nat) : Int).natAbs → (m' = m ∧ e' = e) ∨ m % 2 = 0) := by
  have fwd : ∀ m e, round eb mb num den = some (m, e) →
      IsFloat eb mb m e ∧ ¬ (2 ^ (mb + 2) - 1) * (den * 2 ^ (2 ^ eb - 3)) ≤ 2 * (num * 2 ^ lowest eb mb) ∧ ∀ m' e', IsFloat eb mb m' e' →
      ((num * 2 ^ lowest eb mb : Nat) - (m * 2 ^ (e + lowest eb mb).toNat * den : Nat) : Int).natAbs ≤
        ((num * 2 ^ lowest eb mb : Nat) - (m' * 2 ^ (e' + lowest eb mb).toNat * den : Nat) : Int).natAbs ∧
      (((num * 2 ^ lowest eb mb : Nat) - (m * 2 ^ (e + lowest eb mb).toNat * den : Nat) : Int).natAbs =
        ((num * 2 ^ lowest eb mb : Nat) - (m' * 2 ^ (e' + lowest eb mb).toNat * den : Nat) : Int).natAbs → (m' = m ∧ e' = e) ∨ m % 2 = 0) := by
    intro m e h
    obtain ⟨h1, h2⟩ := round_nearest hd h
    refine ⟨h1, ?_, fun m' e' hf => ?_⟩
    · rw [← round_none hd heb, h]
      simp
    · refine ⟨h2 m' e' hf, fun heq => ?_⟩
      by_cases hv : m' * 2 ^ (e' + lowest eb mb).toNat = m * 2 ^ (e + lowest eb mb).toNat
      · exact .inl (hf.unique h1 hv)
      · right
        have ho : ¬ m % 2 = 1 := by
          intro ho
          have := round_odd hd h ho hmb hf hv
          exact absurd heq (Nat.ne_of_lt this)
        omega
  refine ⟨fwd m e, fun h => ?_⟩
  cases hr : round eb mb num den with
  | none =>
    have := h.2.1
    rw [round_none hd heb] at hr
    exact absurd hr this
  | some p =>
    obtain ⟨m1, e1⟩ := p
    have h1 := fwd m1 e1 hr
    have a1 := h.2.2 m1 e1 h1.1
    have a2 := h1.2.2 m e h.1
    have heq := Nat.le_antisymm a1.1 a2.1
    rcases a1.2 heq with ⟨rfl, rfl⟩ | hev
    · rfl
    rcases a2.2 heq.symm with ⟨rfl, rfl⟩ | hev1
    · rfl
    -- of two different floats with even mantissas another one lies between them
    by_cases hne : m1 = m ∧ e1 = e
    · rw [hne.1, hne.2]
    exfalso
    rcases Nat.lt_trichotomy (m * 2 ^ (e + lowest eb mb).toNat) (m1 * 2 ^ (e1 + lowest eb mb).toNat) with hlt | hv | hlt
    · exact between hd h.1 h1.1 hev hev1 hlt heq fun m' e' hf => (h.2.2 m' e' hf).1
    · obtain ⟨rfl, rfl⟩ := h.1.unique h1.1 hv
      simp at hne
    · exact between hd h1.1 h.1 hev1 hev hlt heq.symm fun m' e' hf => (h1.2.2 m' e' hf).1

/-- `round` finds the nearest `float64`, if there is one. -/
theorem round_iff {num den m : Nat} {e : Int} (hd : 0 < den) : round 11 52 num den = some (m, e) ↔ Spec.Nearest64 num den m e := by
  have hl : lowest 11 52 = 1074 := rfl
  rw [round_iff_of hd (by decide) (by decide), large64, Nat.not_le]
  simp only [isFloat64, hl]
  rfl

/-- The floats of 32 bits. -/
theorem isFloat32 (m : Nat) (e : Int) : IsFloat 8 23 m e ↔ Spec.Float32 m e := by
  have hl : lowest 8 23 = 149 := rfl
  unfold IsFloat Spec.Float32
  rw [hl]
  constructor
  · rintro ⟨j, h1, rfl, h2, h3⟩
    exact ⟨h2, by omega, by omega, fun h => by have := h3 h; omega⟩
  · rintro ⟨h1, h2, h3, h4⟩
    exact ⟨(e + 149).toNat, by omega, by omega, h1, fun h => by have := h4 h; omega⟩

theorem large32 (num den : Nat) :
    (2 ^ (23 + 2) - 1) * (den * 2 ^ (2 ^ 8 - 3)) ≤ 2 * (num * 2 ^ lowest 8 23) ↔ (2 ^ 128 - 2 ^ 103) * den ≤ num := by
  have hl : lowest 8 23 = 149 := rfl
  have h1 : 2 ^ 8 - 3 = 104 + 149 := rfl
  rw [hl, h1]
  have e1 : (2 ^ (23 + 2) - 1) * (den * 2 ^ (104 + 149)) = 2 * ((2 ^ 128 - 2 ^ 103) * den * 2 ^ 149) := by
    have k1 : 2 ^ 128 - 2 ^ 103 = (2 ^ (23 + 2) - 1) * 2 ^ 103 := by
      rw [Nat.sub_mul, Nat.one_mul, ← Nat.pow_add]
    have k2 : 2 ^ (104 + 149) = 2 * (2 ^ 103 * 2 ^ 149) := by rw [← Nat.pow_add, ← Nat.pow_succ']
    rw [k1, k2]
    generalize 2 ^ 103 = x
    generalize 2 ^ 149 = y
    generalize 2 ^ (23 + 2) - 1 = z
    ac_rfl
  rw [e1]
  constructor
  · intro h
    exact Nat.le_of_mul_le_mul_right (Nat.le_of_mul_le_mul_left h (by decide)) (two_pow_pos 149)
  · intro h
    exact Nat.mul_le_mul_left 2 (Nat.mul_le_mul_right _ h)

/-- `round` finds the nearest `float32`, if there is one. -/
theorem round_iff32 {num den m : Nat} {e : Int} (hd : 0 < den) : round 8 23 num den = some (m, e) ↔ Spec.Nearest32 num den m e := by
  have hl : lowest 8 23 = 149 := rfl
  rw [round_iff_of hd (by decide) (by decide), large32, Nat.not_le]
  simp only [isFloat32, hl]
  rfl

end Wamp.Strconv
