import Verif.Lemmas.Strconv
/-!
# `shortest` finds the shortest decimal
-/
namespace Wamp.Strconv

theorem ten_pow_pos (n : Nat) : 0 < 10 ^ n := Nat.pow_pos (by decide)

/-! ### Fractions -/

theorem halfEven_scale (q r d c : Nat) (hc : 0 < c) : halfEven q (r * c) (d * c) = halfEven q r d := by
  have e1 : 2 * (r * c) < d * c ↔ 2 * r < d := by rw [← Nat.mul_assoc]; exact Nat.mul_lt_mul_right hc
  have e2 : d * c < 2 * (r * c) ↔ d < 2 * r := by rw [← Nat.mul_assoc]; exact Nat.mul_lt_mul_right hc
  unfold halfEven
  simp only [e1, e2]

/-- Only the value of a fraction matters. -/
theorem round_scale_eq (eb mb num den c : Nat) (hc : 0 < c) : round eb mb (num * c) (den * c) = round eb mb num den := by
  unfold round
  simp only
  rw [show num * c * 2 ^ lowest eb mb = num * 2 ^ lowest eb mb * c by ac_rfl, Nat.mul_div_mul_right _ _ hc]
  generalize Nat.log2 (num * 2 ^ lowest eb mb / den) - mb = s
  rw [show den * c * 2 ^ s = den * 2 ^ s * c by ac_rfl, Nat.mul_div_mul_right _ _ hc, Nat.mul_mod_mul_right, halfEven_scale _ _ _ _ hc]

/-- A decimal as a fraction with a given power of ten below. -/
theorem ofDecimal_over (eb mb d : Nat) (t : Int) (K : Nat) (h : 0 ≤ t + K) :
    ofDecimal eb mb d t = round eb mb (d * 10 ^ (t + K).toNat) (10 ^ K) := by
  unfold ofDecimal
  rcases Int.le_total 0 t with ht | ht
  · rw [show (-t).toNat = 0 by omega, show (t + K).toNat = t.toNat + K by omega, Nat.pow_add, ← Nat.mul_assoc, Nat.pow_zero]
    have := round_scale_eq eb mb (d * 10 ^ t.toNat) 1 (10 ^ K) (ten_pow_pos K)
    rw [Nat.one_mul] at this
    exact this.symm
  · rw [show t.toNat = 0 by omega, Nat.pow_zero, Nat.mul_one]
    have : K = (-t).toNat + (t + K).toNat := by omega
    conv => rhs; arg 4; rw [this, Nat.pow_add]
    rw [round_scale_eq _ _ _ _ _ (ten_pow_pos _)]

theorem ofDecimal_ten (eb mb d : Nat) (t : Int) : ofDecimal eb mb (d * 10) t = ofDecimal eb mb d (t + 1) := by
  rw [ofDecimal_over eb mb (d * 10) t (-t).toNat (by omega), ofDecimal_over eb mb d (t + 1) (-t).toNat (by omega),
    show (t + 1 + (-t).toNat).toNat = (t + (-t).toNat).toNat + 1 by omega, Nat.pow_succ, Nat.mul_assoc, Nat.mul_comm 10]

/-- Stripping does not change the value. -/
theorem strip_spec (n d : Nat) (t : Int) (hd : 0 < d) (h : d ≤ n) :
    ∃ z : Nat, d = (strip n d t).1 * 10 ^ z ∧ (strip n d t).2 = t + z ∧ (strip n d t).1 % 10 ≠ 0 := by
  induction n generalizing d t with
  | zero => omega
  | succ n ih =>
    rw [strip]
    split
    · rename_i h0
      obtain ⟨z, h1, h2, h3⟩ := ih (d / 10) (t + 1) (by omega) (by omega)
      refine ⟨z + 1, ?_, by rw [h2]; push_cast; omega, h3⟩
      rw [Nat.pow_succ, ← Nat.mul_assoc, ← h1]
      omega
    · rename_i h0
      exact ⟨0, by simp, by simp, h0⟩

theorem ofDecimal_zeros (eb mb d z : Nat) (t : Int) : ofDecimal eb mb (d * 10 ^ z) t = ofDecimal eb mb d (t + z) := by
  induction z generalizing t with
  | zero => simp
  | succ z ih => rw [Nat.pow_succ, ← Nat.mul_assoc, ofDecimal_ten, ih]; congr 1; push_cast; omega

theorem strip_ofDecimal (eb mb d : Nat) (t : Int) (hd : 0 < d) :
    ofDecimal eb mb (strip d d t).1 (strip d d t).2 = ofDecimal eb mb d t := by
  obtain ⟨z, h1, h2, -⟩ := strip_spec d d t hd (Nat.le_refl _)
  conv => rhs; rw [h1]
  rw [ofDecimal_zeros, h2]

theorem reads_iff (eb mb m : Nat) (e : Int) (d : Nat) (t : Int) :
    (reads eb mb m e d t).isSome = true ↔ 0 < d ∧ ofDecimal eb mb d t = some (m, e) := by
  unfold reads
  simp only
  rcases Nat.eq_zero_or_pos d with rfl | hd
  · simp [strip]
  · have := strip_pos d d t hd (Nat.le_refl _)
    rw [strip_ofDecimal _ _ _ _ hd]
    split
    · rename_i h; simp [hd, h.2]
    · rename_i h
      simp only [Option.isSome_none, Bool.false_eq_true, false_iff]
      rintro ⟨-, h2⟩
      exact h ⟨by omega, h2⟩

/-! ### Which numbers are read as a float -/

theorem far (A C X Y : Nat) (hb : (A ≤ C ∧ C ≤ X) ∨ (C ≤ A ∧ X ≤ C)) (h : ((A : Int) - X).natAbs ≤ ((A : Int) - Y).natAbs) :
    ((C : Int) - X).natAbs ≤ ((C : Int) - Y).natAbs ∧
      (((C : Int) - X).natAbs = ((C : Int) - Y).natAbs → X = Y ∨ ((A : Int) - X).natAbs = ((A : Int) - Y).natAbs) := by
  omega

theorem dist_scale (a b c : Nat) : ((a * c : Nat) - (b * c : Nat) : Int).natAbs = ((a : Int) - b).natAbs * c := by
  push_cast
  rw [← Int.sub_mul, Int.natAbs_mul, Int.natAbs_natCast]

/-- A float is not too large. -/
theorem IsFloat.limit {eb mb m : Nat} {e : Int} (h : IsFloat eb mb m e) :
    2 * (m * 2 ^ (e + lowest eb mb).toNat) + 2 ^ (2 ^ eb - 3) ≤ (2 ^ (mb + 2) - 1) * 2 ^ (2 ^ eb - 3) := by
  obtain ⟨j, hj, rfl, hm, -⟩ := h
  rw [Int.sub_add_cancel, Int.toNat_natCast]
  have h1 : m * 2 ^ j ≤ (2 ^ (mb + 1) - 1) * 2 ^ (2 ^ eb - 3) := Nat.mul_le_mul (by omega) (Nat.pow_le_pow_right (by decide) hj)
  have h2 : 2 ^ (mb + 2) - 1 = 2 * (2 ^ (mb + 1) - 1) + 1 := by rw [Nat.pow_succ 2 (mb + 1)]; have := two_pow_pos (mb + 1); omega
  rw [h2, Nat.add_mul, Nat.one_mul, Nat.mul_assoc]
  omega

/-- What lies between a number and the float it is read as is also read as that float. -/
theorem round_between {eb mb a b c d m : Nat} {e : Int} (heb : 2 ≤ eb) (hmb : 0 < mb) (hb : 0 < b) (hd : 0 < d)
    (h : round eb mb a b = some (m, e))
    (hbt : (a * d ≤ c * b ∧ c * 2 ^ lowest eb mb ≤ m * 2 ^ (e + lowest eb mb).toNat * d) ∨
      (c * b ≤ a * d ∧ m * 2 ^ (e + lowest eb mb).toNat * d ≤ c * 2 ^ lowest eb mb)) :
    round eb mb c d = some (m, e) := by
  rw [round_iff_of hb heb hmb] at h
  rw [round_iff_of hd heb hmb]
  obtain ⟨h1, h2, h3⟩ := h
  have hlim := h1.limit
  generalize hF : m * 2 ^ (e + lowest eb mb).toNat = F at *
  generalize hL : 2 ^ lowest eb mb = L at *
  generalize hS : 2 ^ (2 ^ eb - 3) = S at *
  have hLp : 0 < L := by rw [← hL]; exact two_pow_pos _
  have k1 : a * L * d ≤ c * L * b ↔ a * d ≤ c * b := by
    rw [show a * L * d = a * d * L by ac_rfl, show c * L * b = c * b * L by ac_rfl]
    exact Nat.mul_le_mul_right_iff hLp
  have k2 : c * L * b ≤ a * L * d ↔ c * b ≤ a * d := by
    rw [show a * L * d = a * d * L by ac_rfl, show c * L * b = c * b * L by ac_rfl]
    exact Nat.mul_le_mul_right_iff hLp
  have k3 : c * L * b ≤ F * d * b ↔ c * L ≤ F * d := Nat.mul_le_mul_right_iff hb
  have k4 : F * d * b ≤ c * L * b ↔ F * d ≤ c * L := Nat.mul_le_mul_right_iff hb
  rw [← k1, ← k2, ← k3, ← k4] at hbt
  refine ⟨h1, ?_, fun m' e' hf => ?_⟩
  · intro hle
    have hle := Nat.mul_le_mul_right b hle
    rcases hbt with ⟨-, hbt⟩ | ⟨hbt, -⟩
    · have h4 := Nat.mul_lt_mul_of_pos_right (show 2 * F < (2 ^ (mb + 2) - 1) * S by have : 0 < S := (by rw [← hS]; exact two_pow_pos _); omega) (Nat.mul_pos hd hb)
      rw [show (2 ^ (mb + 2) - 1) * (d * S) * b = (2 ^ (mb + 2) - 1) * S * (d * b) by ac_rfl] at hle
      rw [show 2 * F * (d * b) = 2 * (F * d * b) by ac_rfl] at h4
      rw [Nat.mul_assoc 2] at hle
      omega
    · apply h2
      apply Nat.le_of_mul_le_mul_right _ hd
      rw [show (2 ^ (mb + 2) - 1) * (b * S) * d = (2 ^ (mb + 2) - 1) * (d * S) * b by ac_rfl]
      rw [Nat.mul_assoc 2] at hle ⊢
      omega
  · have h4 := h3 m' e' hf
    generalize hG : m' * 2 ^ (e' + lowest eb mb).toNat = G at *
    have s1 := dist_scale (a * L) (F * b) d
    have s2 := dist_scale (a * L) (G * b) d
    have s3 := dist_scale (c * L) (F * d) b
    have s4 := dist_scale (c * L) (G * d) b
    rw [show F * b * d = F * d * b by ac_rfl] at s1
    rw [show G * b * d = G * d * b by ac_rfl] at s2
    have hA := Nat.mul_le_mul_right d h4.1
    rw [← s1, ← s2] at hA
    have := far (a * L * d) (c * L * b) (F * d * b) (G * d * b) hbt hA
    rw [s3, s4, s1, s2] at this
    refine ⟨Nat.le_of_mul_le_mul_right this.1 hb, fun heq => ?_⟩
    rcases this.2 (by rw [heq]) with h5 | h5
    · left
      have h6 : F = G := Nat.eq_of_mul_eq_mul_right hd (Nat.eq_of_mul_eq_mul_right hb h5)
      obtain ⟨rfl, rfl⟩ := h1.unique hf (by rw [hF, hG, h6])
      exact ⟨rfl, rfl⟩
    · exact h4.2 (Nat.eq_of_mul_eq_mul_right hd h5)

/-- Floats are not too close to each other. -/
theorem IsFloat.apart {eb mb m m' : Nat} {e e' : Int} (h : IsFloat eb mb m e) (h' : IsFloat eb mb m' e')
    (hne : m * 2 ^ (e + lowest eb mb).toNat ≠ m' * 2 ^ (e' + lowest eb mb).toNat) :
    m * 2 ^ (e + lowest eb mb).toNat ≤
      ((m * 2 ^ (e + lowest eb mb).toNat : Nat) - (m' * 2 ^ (e' + lowest eb mb).toNat : Nat) : Int).natAbs * 2 ^ (mb + 1) := by
  obtain ⟨j, -, rfl, hm, h0⟩ := h
  obtain ⟨j', -, rfl, hm', h0'⟩ := h'
  simp only [Int.sub_add_cancel, Int.toNat_natCast] at hne ⊢
  rcases Nat.lt_or_ge j' j with hj | hj
  · -- below the power of two
    have hmm : 2 ^ mb ≤ m := Nat.le_of_not_lt fun h => by have := h0 h; omega
    obtain ⟨i, rfl⟩ : ∃ i, j = i + 1 := ⟨j - 1, by omega⟩
    have h1 : m' * 2 ^ j' ≤ (2 ^ (mb + 1) - 1) * 2 ^ i := Nat.mul_le_mul (by omega) (Nat.pow_le_pow_right (by decide) (by omega))
    rw [Nat.pow_succ 2 i, show m * (2 ^ i * 2) = 2 * m * 2 ^ i by ac_rfl] at *
    have h2 : (2 * m - (2 ^ (mb + 1) - 1)) * 2 ^ i ≤ ((2 * m * 2 ^ i : Nat) - (m' * 2 ^ j' : Nat) : Int).natAbs := by
      rw [Nat.sub_mul]; omega
    have hpp : 2 ^ (mb + 1) = 2 * 2 ^ mb := by rw [Nat.pow_succ]; omega
    have h3 : 2 * m ≤ (2 * m - (2 ^ (mb + 1) - 1)) * 2 ^ (mb + 1) := by
      obtain ⟨x, rfl⟩ : ∃ x, m = 2 ^ mb + x := ⟨m - 2 ^ mb, by omega⟩
      rw [show 2 * (2 ^ mb + x) - (2 ^ (mb + 1) - 1) = 2 * x + 1 by have := two_pow_pos mb; omega, Nat.add_mul, Nat.one_mul]
      have : 2 * x * 1 ≤ 2 * x * 2 ^ (mb + 1) := Nat.mul_le_mul_left _ (two_pow_pos _)
      omega
    calc 2 * m * 2 ^ i ≤ (2 * m - (2 ^ (mb + 1) - 1)) * 2 ^ (mb + 1) * 2 ^ i := Nat.mul_le_mul_right _ h3
      _ = (2 * m - (2 ^ (mb + 1) - 1)) * 2 ^ i * 2 ^ (mb + 1) := by ac_rfl
      _ ≤ _ := Nat.mul_le_mul_right _ h2
  · have e2 : m' * 2 ^ j' = m' * 2 ^ (j' - j) * 2 ^ j := by
      rw [Nat.mul_assoc, ← Nat.pow_add, Nat.sub_add_cancel hj]
    rw [e2] at hne ⊢
    rw [dist_scale]
    have hne : m ≠ m' * 2 ^ (j' - j) := fun h => hne (by rw [← h])
    generalize m' * 2 ^ (j' - j) = x at *
    have h1 : 1 * 2 ^ (mb + 1) ≤ ((m : Int) - x).natAbs * 2 ^ (mb + 1) := Nat.mul_le_mul_right _ (by omega)
    calc m * 2 ^ j ≤ ((m : Int) - x).natAbs * 2 ^ (mb + 1) * 2 ^ j := Nat.mul_le_mul_right _ (by omega)
      _ = _ := by ac_rfl

/-- A number very close to a float is read as that float. -/
theorem round_close {eb mb c d m : Nat} {e : Int} (heb : 2 ≤ eb) (hmb : 0 < mb) (hd : 0 < d) (hf : IsFloat eb mb m e)
    (h : ((c * 2 ^ lowest eb mb : Nat) - (m * 2 ^ (e + lowest eb mb).toNat * d : Nat) : Int).natAbs * 2 ^ (mb + 2) <
      m * 2 ^ (e + lowest eb mb).toNat * d) : round eb mb c d = some (m, e) := by
  rw [round_iff_of hd heb hmb]
  have hlim := hf.limit
  have hsmall : m * 2 ^ (e + lowest eb mb).toNat ≤ 2 ^ (mb + 1) * 2 ^ (2 ^ eb - 3) := by
    obtain ⟨j, hj, rfl, hm, -⟩ := hf
    rw [Int.sub_add_cancel, Int.toNat_natCast]
    exact Nat.mul_le_mul (by omega) (Nat.pow_le_pow_right (by decide) hj)
  refine ⟨hf, ?_, fun m' e' hf' => ?_⟩
  · intro hle
    generalize m * 2 ^ (e + lowest eb mb).toNat = F at *
    generalize c * 2 ^ lowest eb mb = C at *
    generalize 2 ^ (2 ^ eb - 3) = S at *
    have h1 : (C - F * d) * 2 ^ (mb + 2) < F * d := Nat.lt_of_le_of_lt (Nat.mul_le_mul_right _ (by omega)) h
    have h2 : F * d ≤ 2 ^ (mb + 1) * S * d := Nat.mul_le_mul_right _ hsmall
    have h3 : 2 * (C - F * d) < S * d := by
      have : 2 * (C - F * d) * 2 ^ (mb + 1) < S * d * 2 ^ (mb + 1) := by
        rw [show 2 * (C - F * d) * 2 ^ (mb + 1) = (C - F * d) * 2 ^ (mb + 2) by rw [Nat.pow_succ 2 (mb + 1)]; ac_rfl,
          show S * d * 2 ^ (mb + 1) = 2 ^ (mb + 1) * S * d by ac_rfl]
        omega
      exact Nat.lt_of_mul_lt_mul_right this
    have h6 := Nat.mul_le_mul_right d hlim
    rw [Nat.add_mul, Nat.mul_assoc 2, Nat.mul_assoc _ S d, Nat.mul_comm S d] at h6
    rw [Nat.mul_comm S d] at h3
    omega
  · by_cases hv : m * 2 ^ (e + lowest eb mb).toNat = m' * 2 ^ (e' + lowest eb mb).toNat
    · obtain ⟨rfl, rfl⟩ := hf.unique hf' hv
      exact ⟨Nat.le_refl _, fun _ => .inl ⟨rfl, rfl⟩⟩
    · have hap := hf.apart hf' hv
      generalize m * 2 ^ (e + lowest eb mb).toNat = F at *
      generalize m' * 2 ^ (e' + lowest eb mb).toNat = G at *
      generalize c * 2 ^ lowest eb mb = C at *
      have h1 := Nat.mul_le_mul_right d hap
      rw [show ((F : Int) - G).natAbs * 2 ^ (mb + 1) * d = ((F : Int) - G).natAbs * d * 2 ^ (mb + 1) by ac_rfl, ← dist_scale] at h1
      rw [Nat.pow_succ 2 (mb + 1), Nat.mul_comm _ 2, ← Nat.mul_assoc] at h
      have h2 := Nat.lt_of_mul_lt_mul_right (Nat.lt_of_lt_of_le h h1)
      generalize F * d = X at *
      generalize G * d = Y at *
      exact ⟨by omega, fun heq => by omega⟩

/-! ### Decimals around a float -/

theorem digits_len {n : Nat} (h : 0 < n) : 10 ^ ((Nat.toDigits 10 n).length - 1) ≤ n ∧ n < 10 ^ (Nat.toDigits 10 n).length := by
  have hpos := @Nat.length_toDigits_pos 10 n
  refine ⟨?_, (Nat.length_toDigits_le_iff (by decide) hpos).1 (Nat.le_refl _)⟩
  rcases Nat.eq_or_lt_of_le hpos with h1 | h1
  · rw [show (Nat.toDigits 10 n).length - 1 = 0 by omega, Nat.pow_zero]; exact h
  · apply Nat.le_of_not_lt
    rw [← Nat.length_toDigits_le_iff (by decide) (by omega)]
    omega

/-- `magnitude` is the number of digits. -/
theorem magnitude_spec {num den : Nat} (hn : 0 < num) (hd : 0 < den) (K : Nat) (hK : 0 ≤ magnitude num den - 1 + K) :
    10 ^ (magnitude num den - 1 + K).toNat * den ≤ num * 10 ^ K ∧ num * 10 ^ K < 10 ^ (magnitude num den + K).toNat * den := by
  unfold magnitude at hK ⊢
  split
  · rename_i hle
    obtain ⟨h1, h2⟩ := digits_len (Nat.div_pos hle hd)
    have hpos := @Nat.length_toDigits_pos 10 (num / den)
    generalize (Nat.toDigits 10 (num / den)).length = l at *
    rw [show ((l : Int) - 1 + K).toNat = l - 1 + K by omega, show ((l : Int) + K).toNat = l + K by omega, Nat.pow_add, Nat.pow_add]
    rw [Nat.le_div_iff_mul_le hd] at h1
    rw [Nat.div_lt_iff_lt_mul hd] at h2
    constructor
    · rw [show 10 ^ (l - 1) * 10 ^ K * den = 10 ^ (l - 1) * den * 10 ^ K by ac_rfl]
      exact Nat.mul_le_mul_right _ h1
    · rw [show 10 ^ l * 10 ^ K * den = 10 ^ l * den * 10 ^ K by ac_rfl]
      exact Nat.mul_lt_mul_of_pos_right h2 (ten_pow_pos K)
  · rename_i hle
    rw [if_neg hle] at hK
    have hu : 0 < (den - 1) / num := Nat.div_pos (by omega) hn
    obtain ⟨h1, h2⟩ := digits_len hu
    have hpos := @Nat.length_toDigits_pos 10 ((den - 1) / num)
    generalize hl : (Nat.toDigits 10 ((den - 1) / num)).length = l at *
    obtain ⟨j, rfl⟩ : ∃ j, l = j + 1 := ⟨l - 1, by omega⟩
    rw [Nat.add_sub_cancel] at *
    rw [Nat.le_div_iff_mul_le hn] at h1
    rw [Nat.div_lt_iff_lt_mul hn] at h2
    have e1 : (-(j : Int) - 1 + K).toNat = K - (j + 1) := by omega
    have e2 : (-(j : Int) + K).toNat = K - j := by omega
    rw [e1, e2]
    constructor
    · have : K = (K - (j + 1)) + (j + 1) := by omega
      conv => rhs; rw [this, Nat.pow_add]
      rw [show num * (10 ^ (K - (j + 1)) * 10 ^ (j + 1)) = 10 ^ (K - (j + 1)) * (10 ^ (j + 1) * num) by ac_rfl]
      exact Nat.mul_le_mul_left _ (by omega)
    · have : K = (K - j) + j := by omega
      conv => lhs; rw [this, Nat.pow_add]
      rw [show num * (10 ^ (K - j) * 10 ^ j) = 10 ^ (K - j) * (10 ^ j * num) by ac_rfl]
      exact Nat.mul_lt_mul_of_pos_left (by omega) (ten_pow_pos _)

/-- The steps of size `10 ^ t`. -/
theorem grid (num den : Nat) (t : Int) (K : Nat) (hK : 0 ≤ t + K) :
    ∃ s, 0 < s ∧ 10 ^ (t + K).toNat * den = den * 10 ^ t.toNat * s ∧ num * 10 ^ K = num * 10 ^ (-t).toNat * s := by
  rcases Int.le_total 0 t with ht | ht
  · refine ⟨10 ^ K, ten_pow_pos K, ?_, ?_⟩
    · rw [show (t + K).toNat = t.toNat + K by omega, Nat.pow_add]; ac_rfl
    · rw [show (-t).toNat = 0 by omega, Nat.pow_zero, Nat.mul_one]
  · refine ⟨10 ^ (t + K).toNat, ten_pow_pos _, ?_, ?_⟩
    · rw [show t.toNat = 0 by omega, Nat.pow_zero, Nat.mul_one, Nat.mul_comm]
    · rw [Nat.mul_assoc, ← Nat.pow_add, show (-t).toNat + (t + K).toNat = K by omega]

/-- A float as a fraction. -/
theorem float_fraction {eb mb m : Nat} {e : Int} (hf : IsFloat eb mb m e) :
    m * 2 ^ e.toNat * 2 ^ lowest eb mb = m * 2 ^ (e + lowest eb mb).toNat * 2 ^ (-e).toNat := by
  obtain ⟨j, -, rfl, -, -⟩ := hf
  rw [Int.sub_add_cancel, Int.toNat_natCast, Nat.mul_assoc, Nat.mul_assoc, ← Nat.pow_add, ← Nat.pow_add]
  congr 2
  omega

/-- `round_between` with the value of the float as a fraction. -/
theorem round_towards {eb mb a b c d m : Nat} {e : Int} (heb : 2 ≤ eb) (hmb : 0 < mb) (hb : 0 < b) (hd : 0 < d)
    (h : round eb mb a b = some (m, e)) (hf : IsFloat eb mb m e)
    (hbt : (a * d ≤ c * b ∧ c * 2 ^ (-e).toNat ≤ m * 2 ^ e.toNat * d) ∨ (c * b ≤ a * d ∧ m * 2 ^ e.toNat * d ≤ c * 2 ^ (-e).toNat)) :
    round eb mb c d = some (m, e) := by
  refine round_between heb hmb hb hd h ?_
  have hv := float_fraction hf
  have hden := two_pow_pos (-e).toNat
  have hL := two_pow_pos (lowest eb mb)
  generalize m * 2 ^ (e + lowest eb mb).toNat = F at *
  generalize m * 2 ^ e.toNat = num at *
  generalize 2 ^ (-e).toNat = den at *
  generalize 2 ^ lowest eb mb = L at *
  have e1 : F * d * den = num * d * L := by rw [show F * d * den = F * den * d by ac_rfl, ← hv]; ac_rfl
  have k1 : c * L ≤ F * d ↔ c * den ≤ num * d := by
    rw [← Nat.mul_le_mul_right_iff hden, e1, show c * L * den = c * den * L by ac_rfl, Nat.mul_le_mul_right_iff hL]
  have k2 : F * d ≤ c * L ↔ num * d ≤ c * den := by
    rw [← Nat.mul_le_mul_right_iff hden, e1, show c * L * den = c * den * L by ac_rfl, Nat.mul_le_mul_right_iff hL]
  rwa [k1, k2]

/-- If some decimal with at most `p` digits is read as the float, then so is the next one on the same side of it. -/
theorem side {eb mb m : Nat} {e : Int} (heb : 2 ≤ eb) (hmb : 0 < mb) (hm : m ≠ 0) (hf : IsFloat eb mb m e) {a p : Nat} {b : Int} (ha : 0 < a)
    (hap : a < 10 ^ p) (h : ofDecimal eb mb a b = some (m, e)) {num den fl T X : Nat} {t : Int} (hnum : num = m * 2 ^ e.toNat) (hden : den = 2 ^ (-e).toNat)
    (ht : t = magnitude num den - p) (hfl : fl = num * 10 ^ (-t).toNat / (den * 10 ^ t.toNat)) (K : Nat) (hK1 : 0 ≤ t + K) (hK2 : 0 ≤ b + K)
    (hK3 : 0 ≤ magnitude num den - 1 + K) (hT : T = 10 ^ (t + K).toNat) (hX : X = a * 10 ^ (b + K).toNat) :
    (X * den ≤ num * 10 ^ K → 0 < fl ∧ X ≤ fl * T ∧ fl * T * den ≤ num * 10 ^ K ∧ ofDecimal eb mb fl t = some (m, e)) ∧
    (num * 10 ^ K < X * den → (fl + 1) * T ≤ X ∧ num * 10 ^ K < (fl + 1) * T * den ∧ ofDecimal eb mb (fl + 1) t = some (m, e)) := by
  have hdp : 0 < den := by rw [hden]; exact two_pow_pos _
  have hnp : 0 < num := by rw [hnum]; exact Nat.mul_pos (by omega) (two_pow_pos _)
  have hp : 1 ≤ p := by
    rcases Nat.eq_zero_or_pos p with rfl | hp
    · rw [Nat.pow_zero] at hap; omega
    · exact hp
  have hTp : 0 < T := by rw [hT]; exact ten_pow_pos _
  obtain ⟨s, hs, g1, g2⟩ := grid num den t K hK1
  have hq : ∀ q, q * T * den ≤ num * 10 ^ K ↔ q ≤ fl := by
    intro q
    rw [Nat.mul_assoc, hT, g1, g2, ← Nat.mul_assoc, Nat.mul_le_mul_right_iff hs, hfl, Nat.le_div_iff_mul_le (Nat.mul_pos hdp (ten_pow_pos _))]
  obtain ⟨m1, m2⟩ := magnitude_spec hnp hdp K hK3
  have hk : 10 ^ (magnitude num den - 1 + K).toNat = 10 ^ (p - 1) * T := by
    rw [hT, ← Nat.pow_add]; congr 1; omega
  rw [hk] at m1
  have hfl1 : 10 ^ (p - 1) ≤ fl := (hq _).1 m1
  have hflp : 0 < fl := Nat.lt_of_lt_of_le (ten_pow_pos _) hfl1
  have hlo : fl * T * den ≤ num * 10 ^ K := (hq fl).2 (Nat.le_refl _)
  have hhi : num * 10 ^ K < (fl + 1) * T * den := Nat.lt_of_not_le fun h => by have := (hq _).1 h; omega
  have hr : round eb mb X (10 ^ K) = some (m, e) := by rw [hX, ← ofDecimal_over _ _ _ _ _ hK2]; exact h
  -- the decimal is one of the steps, or small
  have hstep : (∃ x, X = x * T) ∨ (X < 10 ^ (p - 1) * T) := by
    rcases Int.le_total t b with hb | hb
    · left
      refine ⟨a * 10 ^ (b - t).toNat, ?_⟩
      rw [hX, hT, Nat.mul_assoc, ← Nat.pow_add]; congr 2; omega
    · rcases Int.lt_or_eq_of_le hb with hb | hb
      · right
        have h1 : a * 10 ^ (b + K).toNat < 10 ^ p * 10 ^ (b + K).toNat := Nat.mul_lt_mul_of_pos_right hap (ten_pow_pos _)
        have h2 : 10 ^ p * 10 ^ (b + K).toNat ≤ 10 ^ (p - 1) * T := by
          rw [hT, ← Nat.pow_add, ← Nat.pow_add]; exact Nat.pow_le_pow_right (by decide) (by omega)
        rw [hX]; omega
      · left
        exact ⟨a, by rw [hX, hT, hb]⟩
  constructor
  · intro hle
    have hXf : X ≤ fl * T := by
      rcases hstep with ⟨x, rfl⟩ | hlt
      · exact Nat.mul_le_mul_right _ ((hq x).1 hle)
      · have := Nat.mul_le_mul_right T hfl1
        omega
    refine ⟨hflp, hXf, hlo, ?_⟩
    rw [ofDecimal_over _ _ _ _ _ hK1, ← hT]
    refine round_towards heb hmb (ten_pow_pos K) (ten_pow_pos K) hr hf (.inl ⟨Nat.mul_le_mul_right _ hXf, ?_⟩)
    rw [← hden, ← hnum]; exact hlo
  · intro hlt
    have hXf : (fl + 1) * T ≤ X := by
      rcases hstep with ⟨x, rfl⟩ | hsm
      · refine Nat.mul_le_mul_right _ (Nat.lt_of_not_le fun h => ?_)
        have := (hq x).2 h
        omega
      · have h1 := Nat.mul_le_mul_right den (Nat.le_of_lt hsm)
        omega
    refine ⟨hXf, hhi, ?_⟩
    rw [ofDecimal_over _ _ _ _ _ hK1, ← hT]
    refine round_towards heb hmb (ten_pow_pos K) (ten_pow_pos K) hr hf (.inr ⟨Nat.mul_le_mul_right _ hXf, ?_⟩)
    rw [← hden, ← hnum]; exact Nat.le_of_lt hhi

/-! ### The shortest decimal -/

theorem halfEven_near (n d : Nat) (hd : 0 < d) :
    ((n : Int) - (halfEven (n / d) (n % d) d * d : Nat)).natAbs * 2 ≤ d ∧
    (halfEven (n / d) (n % d) d = n / d ∨ halfEven (n / d) (n % d) d = n / d + 1) ∧
    ((n : Int) - (halfEven (n / d) (n % d) d * d : Nat)).natAbs ≤ ((n : Int) - (n / d * d : Nat)).natAbs ∧
    ((n : Int) - (halfEven (n / d) (n % d) d * d : Nat)).natAbs ≤ ((n : Int) - ((n / d + 1) * d : Nat)).natAbs := by
  have h1 := Nat.div_add_mod' n d
  have h2 := Nat.mod_lt n hd
  generalize n / d = q at *
  generalize n % d = r at *
  rcases halfEven_cases q r d with ⟨e, h⟩ | ⟨e, h⟩ <;> rw [e] <;> rw [Nat.add_mul, Nat.one_mul] <;> generalize q * d = x at * <;> omega

theorem reads_eq {eb mb m : Nat} {e : Int} {d : Nat} {t : Int} {c : Nat × Int} (h : reads eb mb m e d t = some c) :
    0 < d ∧ ofDecimal eb mb d t = some (m, e) ∧ c = strip d d t := by
  have h1 := (reads_iff eb mb m e d t).1 (by rw [h]; rfl)
  refine ⟨h1.1, h1.2, ?_⟩
  unfold reads at h
  simp only at h
  split at h
  · cases h; rfl
  · cases h

/-- What `tryDigits` gives: the next decimal below or above, the nearer one if it is read as the float. -/
theorem tryDigits_eq {eb mb m : Nat} {e : Int} {p : Nat} {c : Nat × Int} (h : tryDigits eb mb m e p = some c) {num den fl n d : Nat} {t : Int}
    (hnum : num = m * 2 ^ e.toNat) (hden : den = 2 ^ (-e).toNat)
    (ht : t = magnitude num den - p) (hn : n = num * 10 ^ (-t).toNat) (hd : d = den * 10 ^ t.toNat) (hfl : fl = n / d) :
    ∃ x, 0 < x ∧ c = strip x x t ∧ (x = fl ∨ x = fl + 1) ∧
      (((n : Int) - (x * d : Nat)).natAbs ≤ ((n : Int) - (fl * d : Nat)).natAbs ∨ ofDecimal eb mb fl t ≠ some (m, e) ∨ fl = 0) ∧
      (((n : Int) - (x * d : Nat)).natAbs ≤ ((n : Int) - ((fl + 1) * d : Nat)).natAbs ∨ ofDecimal eb mb (fl + 1) t ≠ some (m, e)) := by
  have hdp : 0 < d := by rw [hd, hden]; exact Nat.mul_pos (two_pow_pos _) (ten_pow_pos _)
  unfold tryDigits at h
  simp only at h
  rw [← hnum, ← hden, ← ht, ← hn, ← hd, ← hfl] at h
  obtain ⟨-, h1, h2, h3⟩ := halfEven_near n d hdp
  rw [← hfl] at h1 h2 h3
  split at h
  · rename_i c' hc
    cases h
    obtain ⟨k1, k2, k3⟩ := reads_eq hc
    exact ⟨_, k1, k3, h1, .inl h2, .inl h3⟩
  · rename_i hnone
    have hno : ¬ (0 < halfEven fl (n % d) d ∧ ofDecimal eb mb (halfEven fl (n % d) d) t = some (m, e)) := by
      rw [← reads_iff, hnone]; simp
    obtain ⟨k1, k2, k3⟩ := reads_eq h
    rcases h1 with h1 | h1
    · rw [if_pos h1] at k1 k2 k3
      rw [h1] at hno
      refine ⟨_, k1, k3, .inr rfl, .inr ?_, .inl (Nat.le_refl _)⟩
      by_cases h0 : fl = 0
      · exact .inr h0
      · exact .inl fun h => hno ⟨by omega, h⟩
    · rw [if_neg (by omega)] at k1 k2 k3
      rw [h1] at hno
      exact ⟨_, k1, k3, .inl rfl, .inl (Nat.le_refl _), .inr fun h => hno ⟨by omega, h⟩⟩

theorem tryDigits_isSome {eb mb m : Nat} {e : Int} {p : Nat} {num den fl n d : Nat} {t : Int} (hnum : num = m * 2 ^ e.toNat)
    (hden : den = 2 ^ (-e).toNat) (ht : t = magnitude num den - p) (hn : n = num * 10 ^ (-t).toNat) (hd : d = den * 10 ^ t.toNat) (hfl : fl = n / d)
    {x : Nat} (hx : x = fl ∨ x = fl + 1) (h0 : 0 < x) (h : ofDecimal eb mb x t = some (m, e)) : (tryDigits eb mb m e p).isSome = true := by
  have hdp : 0 < d := by rw [hd, hden]; exact Nat.mul_pos (two_pow_pos _) (ten_pow_pos _)
  obtain ⟨-, h1, -, -⟩ := halfEven_near n d hdp
  unfold tryDigits
  simp only
  rw [← hnum, ← hden, ← ht, ← hn, ← hd, ← hfl]
  rw [← hfl] at h1
  split
  · rfl
  · rename_i hnone
    have hno : ¬ (0 < halfEven fl (n % d) d ∧ ofDecimal eb mb (halfEven fl (n % d) d) t = some (m, e)) := by
      rw [← reads_iff, hnone]; simp
    rw [reads_iff]
    rcases h1 with h1 | h1
    · rw [if_pos h1]
      rw [h1] at hno
      rcases hx with rfl | rfl
      · exact absurd ⟨h0, h⟩ hno
      · exact ⟨h0, h⟩
    · rw [if_neg (by omega)]
      rw [h1] at hno
      rcases hx with rfl | rfl
      · exact ⟨h0, h⟩
      · exact absurd ⟨h0, h⟩ hno

section
variable {eb mb m : Nat} {e : Int} (heb : 2 ≤ eb) (hmb : 0 < mb) (hm : m ≠ 0) (hf : IsFloat eb mb m e)
include heb hmb hm hf

/-- If there is a decimal with so many digits, one is found. -/
theorem tryDigits_complete {a p : Nat} {b : Int} (ha : 0 < a) (hap : a < 10 ^ p) (h : ofDecimal eb mb a b = some (m, e)) :
    (tryDigits eb mb m e p).isSome = true := by
  obtain ⟨h1, h2⟩ := side heb hmb hm hf ha hap h rfl rfl rfl rfl
    ((-(magnitude (m * 2 ^ e.toNat) (2 ^ (-e).toNat) - p)).toNat + (-b).toNat + (1 - magnitude (m * 2 ^ e.toNat) (2 ^ (-e).toNat)).toNat)
    (by omega) (by omega) (by omega) rfl rfl
  rcases Nat.lt_or_ge (m * 2 ^ e.toNat * 10 ^ ((-(magnitude (m * 2 ^ e.toNat) (2 ^ (-e).toNat) - p)).toNat + (-b).toNat +
    (1 - magnitude (m * 2 ^ e.toNat) (2 ^ (-e).toNat)).toNat)) (a * 10 ^ (b + ((-(magnitude (m * 2 ^ e.toNat) (2 ^ (-e).toNat) - p)).toNat + (-b).toNat +
    (1 - magnitude (m * 2 ^ e.toNat) (2 ^ (-e).toNat)).toNat : Nat)).toNat * 2 ^ (-e).toNat) with hc | hc
  · exact tryDigits_isSome rfl rfl rfl rfl rfl rfl (.inr rfl) (Nat.succ_pos _) (h2 hc).2.2
  · exact tryDigits_isSome rfl rfl rfl rfl rfl rfl (.inl rfl) (h1 hc).1 (h1 hc).2.2.2

omit heb hmb hf in
/-- What is found has at most so many digits. -/
theorem tryDigits_digits {p : Nat} (hp : 0 < p) {c : Nat × Int} (h : tryDigits eb mb m e p = some c) : c.1 < 10 ^ p := by
  obtain ⟨x, hx, rfl, hor, -, -⟩ := tryDigits_eq h rfl rfl rfl rfl rfl rfl
  have hdp : 0 < 2 ^ (-e).toNat := two_pow_pos _
  have hnp : 0 < m * 2 ^ e.toNat := Nat.mul_pos (by omega) (two_pow_pos _)
  generalize hnum : m * 2 ^ e.toNat = num at *
  generalize hden : 2 ^ (-e).toNat = den at *
  generalize ht : magnitude num den - (p : Int) = t at *
  generalize hK : (-t).toNat + (1 - magnitude num den).toNat = K
  obtain ⟨s, hs, g1, g2⟩ := grid num den t K (by omega)
  obtain ⟨-, m2⟩ := magnitude_spec hnp hdp K (by omega)
  have hfl : num * 10 ^ (-t).toNat / (den * 10 ^ t.toNat) < 10 ^ p := by
    rw [Nat.div_lt_iff_lt_mul (Nat.mul_pos hdp (ten_pow_pos _))]
    apply Nat.lt_of_mul_lt_mul_right (a := s)
    rw [← g2, Nat.mul_assoc, ← g1]
    rw [show (magnitude num den + K).toNat = p + (t + K).toNat by omega, Nat.pow_add, Nat.mul_assoc] at m2
    exact m2
  have hle : x ≤ 10 ^ p := by omega
  obtain ⟨z, h1, h2, h3⟩ := strip_spec x x t hx (Nat.le_refl _)
  have h4 : (strip x x t).1 ≤ x := by
    conv => rhs; rw [h1]
    exact Nat.le_mul_of_pos_right _ (ten_pow_pos z)
  rcases Nat.lt_or_eq_of_le (Nat.le_trans h4 hle) with h5 | h5
  · exact h5
  · exfalso
    apply h3
    rw [h5]
    obtain ⟨q, rfl⟩ : ∃ q, p = q + 1 := ⟨p - 1, by omega⟩
    rw [Nat.pow_succ]
    omega

/-- No decimal with at most so many digits that is read as the float is closer to it. -/
theorem tryDigits_closest {p : Nat} {c : Nat × Int} (hc : tryDigits eb mb m e p = some c) {a : Nat} {b : Int} (ha : 0 < a) (hap : a < 10 ^ p)
    (h : ofDecimal eb mb a b = some (m, e)) : ∃ K0 : Nat, ∀ K : Nat, K0 ≤ K →
      ((c.1 * 10 ^ (c.2 + K).toNat * 2 ^ (-e).toNat : Nat) - (m * 2 ^ e.toNat * 10 ^ K : Nat) : Int).natAbs ≤
      ((a * 10 ^ (b + K).toNat * 2 ^ (-e).toNat : Nat) - (m * 2 ^ e.toNat * 10 ^ K : Nat) : Int).natAbs := by
  obtain ⟨x, hx, rfl, hor, k1, k2⟩ := tryDigits_eq hc rfl rfl rfl rfl rfl rfl
  have hside := fun (K : Nat) h1 h2 h3 => side heb hmb hm hf ha hap h rfl rfl rfl rfl K h1 h2 h3 rfl rfl
  generalize hnum : m * 2 ^ e.toNat = num at *
  generalize hden : 2 ^ (-e).toNat = den at *
  generalize ht : magnitude num den - (p : Int) = t at *
  refine ⟨(-t).toNat + (-b).toNat + (1 - magnitude num den).toNat, fun K hK => ?_⟩
  obtain ⟨s1, s2⟩ := hside K (by omega) (by omega) (by omega)
  obtain ⟨s, hs, g1, g2⟩ := grid num den t K (by omega)
  obtain ⟨z, h1, h2, -⟩ := strip_spec x x t hx (Nat.le_refl _)
  have e1 : (strip x x t).1 * 10 ^ ((strip x x t).2 + K).toNat = x * 10 ^ (t + K).toNat := by
    conv => rhs; rw [h1]
    rw [h2, show (t + z + K).toNat = z + (t + K).toNat by omega, Nat.pow_add, Nat.mul_assoc]
  rw [e1]
  generalize hfl : num * 10 ^ (-t).toNat / (den * 10 ^ t.toNat) = fl at *
  have hdist : ∀ y : Nat, ((y * 10 ^ (t + K).toNat * den : Nat) - (num * 10 ^ K : Nat) : Int).natAbs =
      ((num * 10 ^ (-t).toNat : Nat) - (y * (den * 10 ^ t.toNat) : Nat) : Int).natAbs * s := by
    intro y
    rw [← dist_scale, ← g2, show y * 10 ^ (t + K).toNat * den = y * (den * 10 ^ t.toNat) * s by rw [Nat.mul_assoc, g1, ← Nat.mul_assoc]]
    generalize y * (den * 10 ^ t.toNat) * s = u
    generalize num * 10 ^ K = v
    omega
  generalize hX : a * 10 ^ (b + K).toNat = X at *
  rcases Nat.lt_or_ge (num * 10 ^ K) (X * den) with hlt | hge
  · obtain ⟨b1, b2, b3⟩ := s2 hlt
    have k := k2.resolve_right (fun h => h b3)
    have k := Nat.mul_le_mul_right s k
    rw [← hdist, ← hdist] at k
    have b4 := Nat.mul_le_mul_right den b1
    omega
  · obtain ⟨b0, b1, b2, b3⟩ := s1 hge
    have k := k1.resolve_right (fun h => h.elim (fun h => h b3) (fun h => by omega))
    have k := Nat.mul_le_mul_right s k
    rw [← hdist, ← hdist] at k
    have b4 := Nat.mul_le_mul_right den b1
    omega

/-- Seventeen digits suffice. -/
theorem tryDigits_17 (h16 : 2 ^ (mb + 1) < 10 ^ 16) : (tryDigits eb mb m e 17).isSome = true := by
  have hdp : 0 < 2 ^ (-e).toNat := two_pow_pos _
  have hnp : 0 < m * 2 ^ e.toNat := Nat.mul_pos (by omega) (two_pow_pos _)
  have hv := float_fraction hf
  have key : ∀ num den : Nat, num = m * 2 ^ e.toNat → den = 2 ^ (-e).toNat → (tryDigits eb mb m e 17).isSome = true := by
    intro num den hnum hden
    rw [← hnum, ← hden] at hv
    rw [← hden] at hdp
    rw [← hnum] at hnp
    generalize ht : magnitude num den - ((17 : Nat) : Int) = t
    generalize hn : num * 10 ^ (-t).toNat = n
    generalize hd : den * 10 ^ t.toNat = d
    have hdd : 0 < d := by rw [← hd]; exact Nat.mul_pos hdp (ten_pow_pos _)
    obtain ⟨h1, h2, -, -⟩ := halfEven_near n d hdd
    generalize hx : halfEven (n / d) (n % d) d = x at *
    generalize hK : (-t).toNat + (1 - magnitude num den).toNat = K
    obtain ⟨s, hs, g1, g2⟩ := grid num den t K (by omega)
    obtain ⟨m1, m2⟩ := magnitude_spec hnp hdp K (by omega)
    rw [hd] at g1
    rw [hn] at g2
    have hstep : 10 ^ 16 * (d * s) ≤ n * s := by
      rw [← g1, ← g2]
      rw [show (magnitude num den - 1 + K).toNat = 16 + (t + K).toNat by omega, Nat.pow_add, Nat.mul_assoc] at m1
      exact m1
    have hstep : 10 ^ 16 * d ≤ n := by
      rw [← Nat.mul_assoc] at hstep
      exact Nat.le_of_mul_le_mul_right hstep hs
    have hnp' : 0 < n := by rw [← hn]; exact Nat.mul_pos hnp (ten_pow_pos _)
    have hclose : ((n : Int) - (x * d : Nat)).natAbs * 2 ^ (mb + 2) < n := by
      generalize ((n : Int) - (x * d : Nat)).natAbs = D at *
      rcases Nat.eq_zero_or_pos D with rfl | hD
      · rw [Nat.zero_mul]; exact hnp'
      · have a1 : D * 2 * 2 ^ (mb + 1) < D * 2 * 10 ^ 16 := Nat.mul_lt_mul_of_pos_left h16 (by omega)
        have a2 : D * 2 * 10 ^ 16 ≤ d * 10 ^ 16 := Nat.mul_le_mul_right _ h1
        rw [show D * 2 ^ (mb + 2) = D * 2 * 2 ^ (mb + 1) by rw [Nat.pow_succ 2 (mb + 1)]; ac_rfl]
        omega
    have hxp : 0 < x := by
      rcases Nat.eq_zero_or_pos x with rfl | h
      · exfalso
        have a1 : n * 1 ≤ n * 2 ^ (mb + 2) := Nat.mul_le_mul_left _ (two_pow_pos _)
        rw [Nat.zero_mul, show ((n : Int) - ((0 : Nat) : Int)).natAbs = n by omega] at hclose
        omega
      · exact h
    refine tryDigits_isSome hnum hden ht.symm hn.symm hd.symm rfl h2 hxp ?_
    rw [ofDecimal_over _ _ _ _ K (by omega)]
    refine round_close heb hmb (ten_pow_pos K) hf ?_
    generalize m * 2 ^ (e + lowest eb mb).toNat = F at *
    have hL := two_pow_pos (lowest eb mb)
    generalize 2 ^ lowest eb mb = L at *
    apply Nat.lt_of_mul_lt_mul_right (a := den)
    have e1 : F * 10 ^ K * den = n * (s * L) := by
      rw [show F * 10 ^ K * den = F * den * 10 ^ K by ac_rfl, ← hv, show num * L * 10 ^ K = num * 10 ^ K * L by ac_rfl, g2, Nat.mul_assoc]
    have e2 : x * 10 ^ (t + K).toNat * L * den = x * d * (s * L) := by
      rw [show x * 10 ^ (t + K).toNat * L * den = x * (10 ^ (t + K).toNat * den) * L by ac_rfl, g1]; ac_rfl
    rw [show ∀ a b c : Nat, a * b * c = a * c * b by intros; ac_rfl, ← dist_scale, e1, e2, dist_scale]
    rw [show ((x * d : Nat) - (n : Int)).natAbs = ((n : Int) - (x * d : Nat)).natAbs by omega]
    rw [show ∀ a b c : Nat, a * b * c = a * c * b by intros; ac_rfl]
    exact Nat.mul_lt_mul_of_pos_right hclose (Nat.mul_pos hs hL)
  exact key _ _ rfl rfl

/-- The decimal that is written has as few digits as possible, and of those no other is closer. -/
theorem shortest_best (h16 : 2 ^ (mb + 1) < 10 ^ 16) {a p : Nat} {b : Int} (ha : 0 < a) (hap : a < 10 ^ p)
    (h : ofDecimal eb mb a b = some (m, e)) :
    (shortest eb mb m e).1 < 10 ^ p ∧ (10 ^ (p - 1) ≤ (shortest eb mb m e).1 → ∃ K0 : Nat, ∀ K : Nat, K0 ≤ K →
      (((shortest eb mb m e).1 * 10 ^ ((shortest eb mb m e).2 + K).toNat * 2 ^ (-e).toNat : Nat) - (m * 2 ^ e.toNat * 10 ^ K : Nat) : Int).natAbs ≤
      ((a * 10 ^ (b + K).toNat * 2 ^ (-e).toNat : Nat) - (m * 2 ^ e.toNat * 10 ^ K : Nat) : Int).natAbs) := by
  have hp : 1 ≤ p := by
    rcases Nat.eq_zero_or_pos p with rfl | hp
    · rw [Nat.pow_zero] at hap; omega
    · exact hp
  unfold shortest
  have h17 := tryDigits_17 heb hmb hm hf h16
  split
  · rename_i c hc
    obtain ⟨l1, q, l2, hl, hq, hno⟩ := List.findSome?_eq_some_iff.1 hc
    have hlen := congrArg List.length hl
    have hql : q = l1.length := by
      have := congrArg (fun l => l[l1.length]?) hl
      simp only [List.length_append, List.length_cons, List.length_range] at this hlen
      rw [List.getElem?_range (by omega), List.getElem?_append_right (by omega)] at this
      simpa using this.symm
    have hmin : ∀ i, i < q → tryDigits eb mb m e (i + 1) = none := by
      intro i hi
      refine hno i ?_
      have : l1 = List.range q := by
        have := congrArg (List.take l1.length) hl
        rw [List.take_left, ← hql, List.take_range] at this
        rw [← this]; congr 1
        simp only [List.length_append, List.length_cons, List.length_range] at hlen
        omega
      rw [this]
      exact List.mem_range.2 hi
    have hdig := tryDigits_digits hm (by omega) hq
    have hqp : q + 1 ≤ p := by
      apply Nat.le_of_not_lt
      intro hlt
      have := hmin (p - 1) (by omega)
      have h2 := tryDigits_complete heb hmb hm hf ha hap h
      rw [show p = p - 1 + 1 by omega, this] at h2
      cases h2
    refine ⟨Nat.lt_of_lt_of_le hdig (Nat.pow_le_pow_right (by decide) hqp), fun hge => ?_⟩
    have : q + 1 = p := by
      rcases Nat.lt_or_eq_of_le hqp with hlt | heq
      · exfalso
        have := Nat.pow_le_pow_right (show 0 < 10 by decide) (show q + 1 ≤ p - 1 by omega)
        omega
      · exact heq
    rw [this] at hq
    exact tryDigits_closest heb hmb hm hf hq ha hap h
  · rename_i hnone
    exfalso
    rw [List.findSome?_eq_none_iff] at hnone
    have := hnone 16 (by simp)
    rw [this] at h17
    cases h17

end

end Wamp.Strconv
