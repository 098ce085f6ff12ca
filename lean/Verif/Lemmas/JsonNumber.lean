import Verif.Spec.Json
import Verif.Spec.FormatsJson
import Verif.Lemmas.Float
import Verif.Lemmas.Shortest
/-!
# Numbers in JSON
-/
namespace Wamp.Json
open Wamp Wamp.Cbor

/-! ### Numbers -/

theorem isDigit_ofNat (n : Nat) (h : n < 10) : isDigit (UInt8.ofNat (48 + n)) = true ∧ (UInt8.ofNat (48 + n)).toNat - 48 = n := by
  have : ∀ n : Fin 10, isDigit (UInt8.ofNat (48 + n.val)) = true ∧ (UInt8.ofNat (48 + n.val)).toNat - 48 = n.val := by decide
  exact this ⟨n, h⟩

theorem decimal_digits (n : Nat) : digits (decimal n) = true := by
  have key : ∀ n, (decimal n).all isDigit = true ∧ decimal n ≠ [] := by
    intro n
    induction n using Nat.strongRecOn with
    | _ n ih =>
      rw [decimal]
      split
      · exact ⟨by rw [List.all_cons, (isDigit_ofNat n ‹_›).1]; rfl, by simp⟩
      · have h := ih (n / 10) (by omega)
        refine ⟨?_, by simp⟩
        rw [List.all_append, h.1, List.all_cons, (isDigit_ofNat (n % 10) (by omega)).1]
        rfl
  have := key n
  rw [digits, this.1]
  simp [this.2]

theorem value_decimal (n : Nat) : value (decimal n) = n := by
  induction n using Nat.strongRecOn with
  | _ n ih =>
    rw [decimal]
    split
    · simp only [value, List.foldl_cons, List.foldl_nil, (isDigit_ofNat n ‹_›).2]
      omega
    · have h := ih (n / 10) (by omega)
      rw [value] at h ⊢
      rw [List.foldl_append, h, List.foldl_cons, List.foldl_nil, (isDigit_ofNat (n % 10) (by omega)).2]
      omega

theorem decimal_head (n : Nat) (h : 0 < n) : (decimal n).head? ≠ some 48 := by
  induction n using Nat.strongRecOn with
  | _ n ih =>
    rw [decimal]
    split
    · rename_i h10
      have : ∀ n : Fin 10, 0 < n.val → UInt8.ofNat (48 + n.val) ≠ 48 := by decide
      simpa using this ⟨n, h10⟩ h
    · have h1 := ih (n / 10) (by omega) (by omega)
      have h2 : decimal (n / 10) ≠ [] := by
        have := decimal_digits (n / 10)
        rw [digits] at this
        simpa using fun h => by simp [h] at this
      rw [List.head?_append]
      cases hd : decimal (n / 10) with
      | nil => exact absurd hd h2
      | cons c r => rw [hd] at h1; simpa using h1

theorem decimal_natural (n : Nat) : natural (decimal n) = true := by
  rw [natural, decimal_digits]
  by_cases h : n = 0
  · subst h; decide +kernel
  · simp [decimal_head n (by omega)]

theorem takeWhile_all {p : UInt8 → Bool} {s : Str} (h : s.all p = true) (rest : Str) (hr : ∀ c r, rest = c :: r → p c = false) :
    (s ++ rest).takeWhile p = s ∧ (s ++ rest).dropWhile p = rest := by
  induction s with
  | nil =>
    cases rest with
    | nil => exact ⟨rfl, rfl⟩
    | cons c r => simp [hr c r rfl]
  | cons c s ih =>
    simp only [List.all_cons, Bool.and_eq_true] at h
    obtain ⟨h1, h2⟩ := ih h.2
    simp [h.1, h1, h2]

theorem digits_all {s : Str} (h : digits s = true) : s.all isDigit = true := by
  rw [digits, Bool.and_eq_true] at h
  exact h.2

theorem digits_ne {s : Str} (h : digits s = true) : s ≠ [] := by
  rintro rfl
  cases h

theorem unsigned_digits {s : Str} (h : natural s = true) : unsigned s = true := by
  have hd : digits s = true := by rw [natural, Bool.and_eq_true] at h; exact h.1
  obtain ⟨h1, h2⟩ := takeWhile_all (digits_all hd) [] (by simp)
  rw [List.append_nil] at h1 h2
  rw [unsigned, h1, h2, h]
  rfl

theorem digit_ne (c : UInt8) (h : isDigit c = true) : c ≠ 0x2d := by
  rintro rfl
  cases h

end Wamp.Json

namespace Wamp.Formats
open Wamp Wamp.Spec Wamp.Cbor

theorem digitChar_byte (n : Nat) (h : n < 10) : UInt8.ofNat (Nat.digitChar n).toNat = UInt8.ofNat (48 + n) := by
  have : ∀ n : Fin 10, UInt8.ofNat (Nat.digitChar n.val).toNat = UInt8.ofNat (48 + n.val) := by decide
  exact this ⟨n, h⟩

theorem digitsOf_eq (n : Nat) : digitsOf n = Json.decimal n := by
  induction n using Nat.strongRecOn with
  | _ n ih =>
    rw [digitsOf, Nat.toDigits_eq_if (by decide), Json.decimal]
    by_cases h : n < 10
    · rw [if_pos h, if_pos h, List.map_singleton, digitChar_byte n h]
    · rw [if_neg h, if_neg h, List.map_append, List.map_singleton, digitChar_byte _ (by omega), ← digitsOf, ih (n / 10) (by omega)]

theorem integerOf_eq (v : Int) : integerOf v = Json.intText v := by
  rw [integerOf, Json.intText, digitsOf_eq]

theorem isDigit_iff (c : UInt8) : Json.isDigit c = true ↔ 48 ≤ c.toNat ∧ c.toNat ≤ 57 := by
  simp [Json.isDigit, within]

theorem digits_iff (s : Str) : Json.digits s = true ↔ Digits s := by
  rw [Json.digits, Digits, Bool.and_eq_true, List.all_eq_true]
  simp only [isDigit_iff]
  cases s <;> simp

/-- Digits without superfluous zeros are those of their value. -/
theorem natural_value (s : Str) (h : Json.natural s = true) : s = Json.decimal (Json.value s) := by
  generalize hn : s.length = n
  induction n using Nat.strongRecOn generalizing s with
  | _ n ih =>
    rw [Json.natural, Bool.and_eq_true, Bool.or_eq_true] at h
    obtain ⟨h1, h2⟩ := h
    have hd := (digits_iff s).1 h1
    rcases List.eq_nil_or_concat s with rfl | ⟨t, c, rfl⟩
    · exact absurd rfl hd.1
    rw [List.concat_eq_append] at *
    have hc := hd.2 c (by simp)
    have hb : UInt8.ofNat (48 + (c.toNat - 48)) = c := by rw [show 48 + (c.toNat - 48) = c.toNat by omega]; exact UInt8.ofNat_toNat
    have hv : Json.value (t ++ [c]) = Json.value t * 10 + (c.toNat - 48) := by rw [Json.value, List.foldl_append]; rfl
    rw [hv]
    cases t with
    | nil =>
      rw [Json.decimal, if_pos (by simp only [Json.value, List.foldl_nil]; omega), show Json.value [] = 0 from rfl, Nat.zero_mul, Nat.zero_add, hb]
      rfl
    | cons a t =>
      have h3 : a ≠ 48 := by
        rcases h2 with h2 | h2
        · simp at h2
        · simpa using h2
      have h4 : Json.natural (a :: t) = true := by
        rw [Json.natural, (digits_iff (a :: t)).2 ⟨by simp, fun c hc => hd.2 c (List.mem_append.2 (.inl hc))⟩]
        simp [h3]
      have h5 := ih (a :: t).length (by rw [← hn]; simp) (a :: t) h4 rfl
      have h6 : Json.value (a :: t) ≠ 0 := by
        intro h0
        rw [h0] at h5
        have h7 : Json.decimal 0 = [48] := by rw [Json.decimal]; rfl
        rw [h7] at h5
        injection h5 with h5
        exact h3 h5
      rw [Json.decimal, if_neg (by omega), show (Json.value (a :: t) * 10 + (c.toNat - 48)) / 10 = Json.value (a :: t) by omega,
        show (Json.value (a :: t) * 10 + (c.toNat - 48)) % 10 = c.toNat - 48 by omega, hb, ← h5]

theorem natural_iff (s : Str) : Json.natural s = true ↔ Digits s ∧ (s.head? = some 48 → s = [48]) := by
  rw [Json.natural, Bool.and_eq_true, digits_iff]
  apply and_congr_right
  intro hd
  cases s with
  | nil => exact absurd rfl hd.1
  | cons a t =>
    simp only [List.length_cons, List.head?_cons, Option.some.injEq, List.cons.injEq, Bool.or_eq_true, decide_eq_true_eq, bne_iff_ne, ne_eq]
    constructor
    · rintro (h | h) ha
      · exact ⟨ha, List.length_eq_zero_iff.1 (by omega)⟩
      · exact absurd ha h
    · intro h
      by_cases ha : a = 48
      · left; rw [(h ha).2]; rfl
      · exact .inr ha

/-- An exponent. -/
def Exp (exp : Str) : Prop :=
  exp = [] ∨ ∃ e sg ds, (e = 0x65 ∨ e = 0x45) ∧ (sg = [] ∨ sg = str "-" ∨ sg = str "+") ∧ Digits ds ∧ exp = e :: sg ++ ds

theorem digit_not {s : Str} (h : Digits s) : ∃ c r, s = c :: r ∧ c ≠ 0x2d ∧ c ≠ 0x2b ∧ c ≠ 0x2e := by
  obtain ⟨h1, h2⟩ := h
  cases s with
  | nil => exact absurd rfl h1
  | cons c r =>
    have := h2 c (List.mem_cons_self ..)
    refine ⟨c, r, rfl, ?_, ?_, ?_⟩ <;> (rintro rfl; revert this; decide)

theorem exp_iff (s : Str) : Json.optExponent s = true ↔ Exp s := by
  have d1 : str "-" = [0x2d] := rfl
  have d2 : str "+" = [0x2b] := rfl
  constructor
  · intro h
    cases s with
    | nil => exact .inl rfl
    | cons c r =>
      rw [Json.optExponent, Bool.and_eq_true, Bool.or_eq_true, decide_eq_true_eq, decide_eq_true_eq] at h
      obtain ⟨h1, h2⟩ := h
      cases r with
      | nil => cases h2
      | cons x r =>
        rw [Json.exponent] at h2
        split at h2
        · rename_i hx
          simp only [Bool.or_eq_true, decide_eq_true_eq] at hx
          rcases hx with rfl | rfl
          · exact .inr ⟨c, [0x2d], r, h1, .inr (.inl d1.symm), (digits_iff r).1 h2, rfl⟩
          · exact .inr ⟨c, [0x2b], r, h1, .inr (.inr d2.symm), (digits_iff r).1 h2, rfl⟩
        · exact .inr ⟨c, [], x :: r, h1, .inl rfl, (digits_iff _).1 h2, rfl⟩
  · rintro (rfl | ⟨e, sg, ds, he, hs, hd, rfl⟩)
    · rfl
    · rw [List.cons_append, Json.optExponent, Bool.and_eq_true, Bool.or_eq_true, decide_eq_true_eq, decide_eq_true_eq]
      refine ⟨he, ?_⟩
      rcases hs with rfl | rfl | rfl
      · obtain ⟨c, r, rfl, h1, h2, -⟩ := digit_not hd
        rw [List.nil_append, Json.exponent]
        simp only [h1, h2, decide_false, Bool.or_self, Bool.false_eq_true, if_false]
        exact (digits_iff _).2 hd
      · rw [d1, List.cons_append, Json.exponent]
        exact (digits_iff _).2 hd
      · rw [d2, List.cons_append, Json.exponent]
        exact (digits_iff _).2 hd

theorem exp_head {s : Str} (h : Exp s) : ∀ c r, s = c :: r → Json.isDigit c = false ∧ c ≠ 0x2e := by
  rcases h with rfl | ⟨e, sg, ds, he, _, _, rfl⟩
  · intro c r h; cases h
  · intro c r h
    rw [List.cons_append] at h
    injection h with h _
    subst h
    rcases he with rfl | rfl <;> decide

theorem split_digits (s : Str) : (s.takeWhile Json.isDigit).all Json.isDigit = true := by
  induction s with
  | nil => rfl
  | cons c s ih =>
    rw [List.takeWhile_cons]
    split
    · rw [List.all_cons, ih]; simp [*]
    · rfl

theorem fraction_iff (s : Str) : Json.fraction s = true ↔
    ∃ frac exp, s = frac ++ exp ∧ (frac = [] ∨ ∃ ds, Digits ds ∧ frac = 0x2e :: ds) ∧ Exp exp := by
  constructor
  · intro h
    cases s with
    | nil => exact ⟨[], [], rfl, .inl rfl, .inl rfl⟩
    | cons c r =>
      rw [Json.fraction] at h
      split at h
      · rename_i hc
        subst hc
        rw [Bool.and_eq_true] at h
        exact ⟨_, _, (by rw [List.cons_append, List.takeWhile_append_dropWhile]), .inr ⟨_, (digits_iff _).1 h.1, rfl⟩, (exp_iff _).1 h.2⟩
      · exact ⟨[], _, rfl, .inl rfl, (exp_iff _).1 h⟩
  · rintro ⟨frac, exp, rfl, rfl | ⟨ds, hd, rfl⟩, he⟩
    · rw [List.nil_append]
      cases hs : exp with
      | nil => rfl
      | cons c r =>
        rw [Json.fraction, if_neg (exp_head he c r hs).2, ← hs]
        exact (exp_iff _).2 he
    · rw [List.cons_append, Json.fraction, if_pos rfl]
      obtain ⟨h1, h2⟩ := Json.takeWhile_all (Json.digits_all ((digits_iff _).2 hd)) exp (fun c r h => (exp_head he c r h).1)
      rw [h1, h2, (digits_iff _).2 hd, (exp_iff _).2 he]
      rfl

theorem unsigned_iff (s : Str) : Json.unsigned s = true ↔ ∃ int frac exp, s = int ++ frac ++ exp ∧
    (Digits int ∧ (int.head? = some 48 → int = [48])) ∧ (frac = [] ∨ ∃ ds, Digits ds ∧ frac = 0x2e :: ds) ∧ Exp exp := by
  rw [Json.unsigned, Bool.and_eq_true, natural_iff, fraction_iff]
  constructor
  · rintro ⟨h1, frac, exp, h2, h3, h4⟩
    refine ⟨_, frac, exp, ?_, h1, h3, h4⟩
    rw [List.append_assoc, ← h2, List.takeWhile_append_dropWhile]
  · rintro ⟨int, frac, exp, rfl, h1, h3, h4⟩
    obtain ⟨g1, g2⟩ := Json.takeWhile_all (Json.digits_all ((digits_iff _).2 h1.1)) (frac ++ exp) (by
      intro c r h
      rcases h3 with rfl | ⟨ds, _, rfl⟩
      · exact (exp_head h4 c r h).1
      · rw [List.cons_append] at h
        injection h with h _
        subst h
        rfl)
    rw [List.append_assoc, g1, g2]
    exact ⟨h1, frac, exp, rfl, h3, h4⟩

/-! ### Reading -/

theorem valueOf_eq (s : Str) : valueOf s = Json.value s := by
  unfold valueOf Json.value
  congr
  funext n c
  rw [Nat.mul_comm]

theorem exponentOf_exp {exp : Str} {x : Int} (h : ExponentOf exp x) : Exp exp ∧ Json.exponentOf exp = x := by
  have d1 : str "-" = [0x2d] := rfl
  have d2 : str "+" = [0x2b] := rfl
  rcases h with ⟨rfl, rfl⟩ | ⟨e, sg, ds, he, hd, rfl, hs⟩
  · exact ⟨.inl rfl, rfl⟩
  · rcases hs with ⟨rfl | rfl, rfl⟩ | ⟨rfl, rfl⟩
    · refine ⟨.inr ⟨e, [], ds, he, .inl rfl, hd, rfl⟩, ?_⟩
      obtain ⟨c, r, rfl, h1, h2, -⟩ := digit_not hd
      rw [List.cons_append, List.nil_append, Json.exponentOf, if_neg h1, if_neg h2, valueOf_eq]
    · refine ⟨.inr ⟨e, _, ds, he, .inr (.inr rfl), hd, rfl⟩, ?_⟩
      rw [d2, List.cons_append, List.cons_append, List.nil_append, Json.exponentOf, if_neg (by decide), if_pos rfl, valueOf_eq]
    · refine ⟨.inr ⟨e, _, ds, he, .inr (.inl rfl), hd, rfl⟩, ?_⟩
      rw [d1, List.cons_append, List.cons_append, List.nil_append, Json.exponentOf, if_pos rfl, valueOf_eq]

theorem exp_exponentOf {exp : Str} (h : Exp exp) : ∃ x, ExponentOf exp x := by
  rcases h with rfl | ⟨e, sg, ds, he, rfl | rfl | rfl, hd, rfl⟩
  · exact ⟨0, .inl ⟨rfl, rfl⟩⟩
  · exact ⟨_, .inr ⟨e, _, ds, he, hd, rfl, .inl ⟨.inl rfl, rfl⟩⟩⟩
  · exact ⟨_, .inr ⟨e, _, ds, he, hd, rfl, .inr ⟨rfl, rfl⟩⟩⟩
  · exact ⟨_, .inr ⟨e, _, ds, he, hd, rfl, .inl ⟨.inr rfl, rfl⟩⟩⟩

theorem fractionOf_frac {frac exp ds : Str} (hf : (frac = [] ∧ ds = []) ∨ (Digits ds ∧ frac = 0x2e :: ds)) (he : Exp exp) :
    Json.fractionOf (frac ++ exp) = (ds, exp) := by
  rcases hf with ⟨rfl, rfl⟩ | ⟨hd, rfl⟩
  · rw [List.nil_append]
    cases hs : exp with
    | nil => rfl
    | cons c r => rw [Json.fractionOf, if_neg (exp_head he c r hs).2]
  · obtain ⟨h1, h2⟩ := Json.takeWhile_all (Json.digits_all ((digits_iff _).2 hd)) exp (fun c r h => (exp_head he c r h).1)
    rw [List.cons_append, Json.fractionOf, if_pos rfl, h1, h2]

theorem frac_head {frac exp ds : Str} (hf : (frac = [] ∧ ds = []) ∨ (Digits ds ∧ frac = 0x2e :: ds)) (he : Exp exp) :
    ∀ c r, frac ++ exp = c :: r → Json.isDigit c = false := by
  intro c r h
  rcases hf with ⟨rfl, -⟩ | ⟨_, rfl⟩
  · exact (exp_head he c r h).1
  · rw [List.cons_append] at h
    injection h with h _
    subst h
    rfl

/-- How a number is read. -/
theorem numberOf_read {s int ds : Str} {neg : Bool} {x : Int} (h : NumberOf s neg int ds x) :
    Json.isNumber s = true ∧
      Json.number s = (Strconv.ofDecimal 11 52 (Json.value (int ++ ds)) (x - ds.length)).map fun p => .fin neg p.1 p.2 := by
  obtain ⟨frac, exp, rfl, hi, hf, hx⟩ := h
  obtain ⟨he, hx⟩ := exponentOf_exp hx
  have hu : Json.unsigned (int ++ frac ++ exp) = true := by
    refine (unsigned_iff _).2 ⟨int, frac, exp, rfl, hi, ?_, he⟩
    rcases hf with ⟨rfl, -⟩ | ⟨h1, h2⟩
    · exact .inl rfl
    · exact .inr ⟨ds, h1, h2⟩
  obtain ⟨g1, g2⟩ := Json.takeWhile_all (Json.digits_all ((digits_iff _).2 hi.1)) (frac ++ exp) (frac_head hf he)
  have hm : Json.magnitudeOf (int ++ frac ++ exp) = Strconv.ofDecimal 11 52 (Json.value (int ++ ds)) (x - ds.length) := by
    rw [Json.magnitudeOf, List.append_assoc, g1, g2, fractionOf_frac hf he]
    simp only [hx]
  cases neg with
  | true =>
    rw [if_pos rfl, show str "-" = [0x2d] from rfl, List.cons_append, List.cons_append, List.cons_append, List.nil_append, Json.isNumber, Json.number,
      if_pos rfl, if_pos rfl, hm]
    exact ⟨hu, rfl⟩
  | false =>
    rw [if_neg (by decide), List.nil_append]
    obtain ⟨c, r, hc, h1, -⟩ := digit_not hi.1
    obtain ⟨r', hr'⟩ : ∃ r', int ++ frac ++ exp = c :: r' := ⟨r ++ frac ++ exp, by rw [hc]; rfl⟩
    rw [hr'] at hu hm ⊢
    rw [Json.isNumber, Json.number, if_neg h1, if_neg h1, hm]
    exact ⟨hu, rfl⟩

theorem isNumber_iff (s : Str) : Json.isNumber s = true ↔ Number s := by
  constructor
  · intro h
    have key : ∀ t, Json.unsigned t = true → ∃ int ds x frac exp, t = int ++ frac ++ exp ∧ (Digits int ∧ (int.head? = some 48 → int = [48])) ∧
        ((frac = [] ∧ ds = []) ∨ (Digits ds ∧ frac = 0x2e :: ds)) ∧ ExponentOf exp x := by
      intro t ht
      obtain ⟨int, frac, exp, rfl, h1, h2, h3⟩ := (unsigned_iff _).1 ht
      obtain ⟨x, hx⟩ := exp_exponentOf h3
      rcases h2 with rfl | ⟨ds, hd, rfl⟩
      · exact ⟨int, [], x, [], exp, rfl, h1, .inl ⟨rfl, rfl⟩, hx⟩
      · exact ⟨int, ds, x, _, exp, rfl, h1, .inr ⟨hd, rfl⟩, hx⟩
    cases s with
    | nil => cases h
    | cons c r =>
      rw [Json.isNumber] at h
      split at h
      · rename_i hc
        subst hc
        obtain ⟨int, ds, x, frac, exp, rfl, h1, h2, h3⟩ := key _ h
        exact ⟨true, int, ds, x, frac, exp, rfl, h1, h2, h3⟩
      · obtain ⟨int, ds, x, frac, exp, he, h1, h2, h3⟩ := key _ h
        exact ⟨false, int, ds, x, frac, exp, he, h1, h2, h3⟩
  · rintro ⟨neg, int, ds, x, h⟩
    exact (numberOf_read h).1

/-- A number is read as the nearest `float64`. -/
theorem number_stands {s : Str} {f : GoFloat} (hn : Number s) : Json.number s = some f ↔ Stands64 s f := by
  constructor
  · intro h
    obtain ⟨neg, int, ds, x, hp⟩ := hn
    rw [(numberOf_read hp).2, Option.map_eq_some_iff] at h
    obtain ⟨⟨m, e⟩, h1, rfl⟩ := h
    exact ⟨neg, int, ds, x, m, e, _, hp, rfl, rfl, by rw [valueOf_eq]; exact (Strconv.round_iff (Nat.pow_pos (by decide))).1 h1⟩
  · rintro ⟨neg, int, ds, x, m, e, t, hp, rfl, rfl, h⟩
    rw [valueOf_eq] at h
    have h1 : Strconv.ofDecimal 11 52 (Json.value (int ++ ds)) (x - ds.length) = some (m, e) := (Strconv.round_iff (Nat.pow_pos (by decide))).2 h
    rw [(numberOf_read hp).2, h1]
    rfl

theorem decimal_numberOf (neg : Bool) (n : Nat) : NumberOf ((if neg then str "-" else []) ++ Json.decimal n) neg (Json.decimal n) [] 0 :=
  ⟨[], [], by simp, (natural_iff _).1 (Json.decimal_natural n), .inl ⟨rfl, rfl⟩, .inl ⟨rfl, rfl⟩⟩

/-- An integer in decimal. -/
theorem signed_text (neg : Bool) (n : Nat) (h : n < 2 ^ 1024 - 2 ^ 970) : Json.isNumber ((if neg then str "-" else []) ++ Json.decimal n) = true ∧
    Json.number ((if neg then str "-" else []) ++ Json.decimal n) = some (signedFloat neg (Strconv.round 11 52 n 1)) := by
  obtain ⟨h1, h2⟩ := numberOf_read (decimal_numberOf neg n)
  refine ⟨h1, ?_⟩
  rw [h2, List.append_nil, Json.value_decimal]
  show Option.map _ (Strconv.round 11 52 (n * 1) 1) = _
  rw [Nat.mul_one]
  cases hr : Strconv.round 11 52 n 1 with
  | some p => rfl
  | none =>
    rw [Strconv.round_none (by decide) (by decide), Strconv.large64, Nat.mul_one] at hr
    exact absurd h (Nat.not_lt.2 hr)

end Wamp.Formats

namespace Wamp.Json
open Wamp Wamp.Spec Wamp.Formats

theorem integer_text (v : Int) (h : v.natAbs < 2 ^ 1024 - 2 ^ 970) : isNumber (intText v) = true ∧ number (intText v) = some (f64OfInt v) := by
  have := signed_text (decide (v < 0)) v.natAbs h
  rw [intText, f64OfInt]
  by_cases hv : v < 0
  · simp only [hv, decide_true, if_true] at this ⊢
    exact this
  · simp only [hv, decide_false, if_false] at this ⊢
    exact this

theorem word_small {n : Nat} (h : n < 2 ^ 64) : n < 2 ^ 1024 - 2 ^ 970 := by
  have h1 : 2 ^ 1024 = 2 ^ 970 + (2 ^ 1024 - 2 ^ 970) := by
    rw [Nat.add_comm, Nat.sub_add_cancel (Nat.pow_le_pow_right (by decide) (by decide))]
  have h2 : 2 ^ 970 * 2 ≤ 2 ^ 1024 := by rw [← Nat.pow_succ]; exact Nat.pow_le_pow_right (by decide) (by decide)
  have h3 : 2 ^ 64 ≤ 2 ^ 970 := Nat.pow_le_pow_right (by decide) (by decide)
  generalize 2 ^ 1024 - 2 ^ 970 = z at *
  generalize 2 ^ 1024 = y at *
  generalize 2 ^ 970 = x at *
  omega

/-- An integer in decimal. -/
theorem int_text (v : Int) (h : v.natAbs < 2 ^ 64) : isNumber (intText v) = true ∧ number (intText v) = some (f64OfInt v) := integer_text v (word_small h)

/-- A natural number in decimal. -/
theorem natural_text (n : Nat) (h : n < 2 ^ 64) : isNumber (decimal n) = true ∧ number (decimal n) = some (f64OfNat n) :=
  signed_text false n (word_small h)

/-! ### Floats -/

theorem value_append (a b : Str) : value (a ++ b) = value a * 10 ^ b.length + value b := by
  have key : ∀ (b : Str) (n : Nat), b.foldl (fun a c => a * 10 + (c.toNat - 48)) n = n * 10 ^ b.length + value b := by
    intro b
    induction b with
    | nil => intro n; simp [value]
    | cons c b ih =>
      intro n
      rw [value, List.foldl_cons, List.foldl_cons, ih, ih, List.length_cons, Nat.pow_succ, Nat.zero_mul, Nat.zero_add, Nat.add_mul, Nat.mul_assoc,
        Nat.mul_comm 10, Nat.add_assoc]
  rw [value, List.foldl_append, key]
  rfl

theorem value_zeros (n : Nat) : value (List.replicate n 48) = 0 := by
  induction n with
  | zero => rfl
  | succ n ih => exact ih

theorem value_skip (n : Nat) (s : Str) : value (List.replicate n 48 ++ s) = value s := by
  induction n with
  | zero => rfl
  | succ n ih => exact ih

theorem digits_zeros (n : Nat) : ∀ c ∈ List.replicate n (48 : UInt8), 48 ≤ c.toNat ∧ c.toNat ≤ 57 := by
  intro c hc
  rw [(List.mem_replicate.1 hc).2]
  decide

theorem decimal_Digits (n : Nat) : Digits (decimal n) := (digits_iff _).1 (decimal_digits n)

theorem head_append {a b : Str} (h : Digits a) (h0 : a.head? ≠ some 48) : (a ++ b).head? ≠ some 48 := by
  cases a with
  | nil => exact absurd rfl h.1
  | cons c r => exact h0

/-- Digits with a decimal point. -/
theorem plainForm_denotes (neg : Bool) (d : Nat) (hd : 0 < d) (t : Int) :
    Denotes ((if neg then str "-" else []) ++ plainForm (decimal d) ((decimal d).length + t)) neg d t := by
  have hD := decimal_Digits d
  have hv := value_decimal d
  have hh := decimal_head d hd
  have hlen : 0 < (decimal d).length := List.length_pos_iff.2 hD.1
  rw [plainForm]
  generalize decimal d = ds at *
  by_cases hp : (ds.length : Int) + t ≤ 0
  · rw [if_pos hp]
    refine ⟨[48], List.replicate (-((ds.length : Int) + t)).toNat 48 ++ ds, 0, 0,
      ⟨0x2e :: (List.replicate (-((ds.length : Int) + t)).toNat 48 ++ ds), [], by simp, ⟨⟨by decide, by decide⟩, fun _ => rfl⟩,
        .inr ⟨⟨by simp [hD.1], fun c hc => by
          rcases List.mem_append.1 hc with hc | hc
          · exact digits_zeros _ c hc
          · exact hD.2 c hc⟩, rfl⟩, .inl ⟨rfl, rfl⟩⟩, ?_, ?_⟩
    · rw [valueOf_eq, show value ([48] ++ (List.replicate (-((ds.length : Int) + t)).toNat 48 ++ ds)) = d from (value_skip _ ds).trans hv, Nat.pow_zero, Nat.mul_one]
    rw [List.length_append, List.length_replicate]
    omega
  · rw [if_neg hp]
    by_cases hle : ds.length ≤ ((ds.length : Int) + t).toNat
    · rw [if_pos hle]
      refine ⟨ds ++ List.replicate (((ds.length : Int) + t).toNat - ds.length) 48, [], 0, ((ds.length : Int) + t).toNat - ds.length,
        ⟨[], [], by simp, ⟨⟨by simp [hD.1], fun c hc => by
          rcases List.mem_append.1 hc with hc | hc
          · exact hD.2 c hc
          · exact digits_zeros _ c hc⟩, fun h => absurd h (head_append hD hh)⟩, .inl ⟨rfl, rfl⟩, .inl ⟨rfl, rfl⟩⟩, ?_, ?_⟩
      · rw [List.append_nil, valueOf_eq, value_append, value_zeros, hv, List.length_replicate, Nat.add_zero]
      · rw [List.length_nil]
        omega
    · rw [if_neg hle]
      generalize hk : ((ds.length : Int) + t).toNat = k at *
      have hk0 : 0 < k := by omega
      have hint : Digits (ds.take k) := ⟨by rw [Ne, List.take_eq_nil_iff]; have := hD.1; simp only [this, or_false]; omega,
        fun c hc => hD.2 c (List.mem_of_mem_take hc)⟩
      have hfr : Digits (ds.drop k) := ⟨by rw [Ne, List.drop_eq_nil_iff]; omega,
        fun c hc => hD.2 c (List.mem_of_mem_drop hc)⟩
      refine ⟨ds.take k, ds.drop k, 0, 0,
        ⟨_, [], by simp, ⟨hint, fun h => absurd h (by
          intro h
          apply hh
          rw [List.head?_take, if_neg (by omega)] at h
          exact h)⟩, .inr ⟨hfr, rfl⟩, .inl ⟨rfl, rfl⟩⟩, ?_, ?_⟩
      · rw [List.take_append_drop, valueOf_eq, hv, Nat.pow_zero, Nat.mul_one]
      · rw [List.length_drop]
        omega

/-- The same with an exponent. -/
theorem exponentForm_denotes (neg : Bool) (d : Nat) (hd : 0 < d) (t : Int) :
    Denotes ((if neg then str "-" else []) ++ exponentForm (decimal d) ((decimal d).length + t)) neg d t := by
  have hD := decimal_Digits d
  have hv := value_decimal d
  have hh := decimal_head d hd
  have hlen : 0 < (decimal d).length := List.length_pos_iff.2 hD.1
  rw [exponentForm]
  generalize decimal d = ds at *
  have hexp : ExponentOf (0x65 :: (if (ds.length : Int) + t ≤ 0 then 0x2d else 0x2b) :: decimal ((ds.length : Int) + t - 1).natAbs) ((ds.length : Int) + t - 1) := by
    by_cases hp : (ds.length : Int) + t ≤ 0
    · rw [if_pos hp]
      exact .inr ⟨0x65, str "-", _, .inl rfl, decimal_Digits _, rfl, .inr ⟨rfl, by rw [valueOf_eq, value_decimal]; omega⟩⟩
    · rw [if_neg hp]
      exact .inr ⟨0x65, str "+", _, .inl rfl, decimal_Digits _, rfl, .inl ⟨.inr rfl, by rw [valueOf_eq, value_decimal]; omega⟩⟩
  have hint : Digits (ds.take 1) := ⟨by rw [Ne, List.take_eq_nil_iff]; have := hD.1; simp only [this, or_false]; omega,
    fun c hc => hD.2 c (List.mem_of_mem_take hc)⟩
  have h0 : (ds.take 1).head? = some 48 → ds.take 1 = [48] := by
    intro h
    rw [List.head?_take, if_neg (by omega)] at h
    exact absurd h hh
  generalize hE : (0x65 :: (if (ds.length : Int) + t ≤ 0 then (0x2d : UInt8) else 0x2b) :: decimal ((ds.length : Int) + t - 1).natAbs) = E at *
  by_cases h1 : ds.length = 1
  · rw [if_pos h1]
    refine ⟨ds.take 1, [], (ds.length : Int) + t - 1, 0, ⟨[], E, by simp, ⟨hint, h0⟩, .inl ⟨rfl, rfl⟩, hexp⟩, ?_, ?_⟩
    · rw [List.append_nil, List.take_of_length_le (by omega), valueOf_eq, hv, Nat.pow_zero, Nat.mul_one]
    · rw [List.length_nil]
      omega
  · rw [if_neg h1]
    have hfr : Digits (ds.drop 1) := ⟨by rw [Ne, List.drop_eq_nil_iff]; omega,
      fun c hc => hD.2 c (List.mem_of_mem_drop hc)⟩
    refine ⟨ds.take 1, ds.drop 1, (ds.length : Int) + t - 1, 0, ⟨_, E, by simp, ⟨hint, h0⟩, .inr ⟨hfr, rfl⟩, hexp⟩, ?_, ?_⟩
    · rw [List.take_append_drop, valueOf_eq, hv, Nat.pow_zero, Nat.mul_one]
    · rw [List.length_drop]
      omega

/-- How a number with a given value is read. -/
theorem denotes_read {s : Str} {neg : Bool} {d : Nat} {t : Int} (h : Denotes s neg d t) :
    isNumber s = true ∧ number s = (Strconv.ofDecimal 11 52 d t).map fun p => .fin neg p.1 p.2 := by
  obtain ⟨int, ds, x, k, hn, hv, ht⟩ := h
  obtain ⟨h1, h2⟩ := numberOf_read hn
  refine ⟨h1, h2.trans ?_⟩
  rw [← valueOf_eq, hv]
  suffices h : Strconv.ofDecimal 11 52 (d * 10 ^ k) (x - (ds.length : Int)) = Strconv.ofDecimal 11 52 d t by rw [h]
  generalize hK : (-(x - (ds.length : Int))).toNat = K
  rw [Strconv.ofDecimal_over _ _ _ _ K (by omega), Strconv.ofDecimal_over _ _ _ _ K (by omega),
    show (t + (K : Int)).toNat = k + (x - (ds.length : Int) + (K : Int)).toNat by omega, Nat.pow_add, Nat.mul_assoc]

/-- The text of a float that is not zero has the value of the shortest decimal. -/
theorem floatText_denotes (eb mb : Nat) (neg : Bool) {m : Nat} (e : Int) (hm : m ≠ 0) (h : Strconv.IsFloat eb mb m e) :
    Denotes (floatText eb mb neg m e) neg (Strconv.shortest eb mb m e).1 (Strconv.shortest eb mb m e).2 := by
  rw [floatText]
  obtain ⟨h1, -⟩ := Strconv.shortest_reads hm h
  simp only [hm, if_false]
  by_cases hb : (below eb mb m e 1 (10 ^ 6) || !below eb mb m e (10 ^ 21) 1) = true
  · rw [if_pos hb]
    exact exponentForm_denotes neg _ h1 _
  · rw [if_neg hb]
    exact plainForm_denotes neg _ h1 _

/-- The text of a float is read as the `float64` nearest to the shortest decimal. -/
theorem floatText_read (eb mb : Nat) (neg : Bool) (m : Nat) (e : Int) (h : Strconv.IsFloat eb mb m e) :
    isNumber (floatText eb mb neg m e) = true ∧ number (floatText eb mb neg m e) =
      (if m = 0 then Strconv.round 11 52 0 1 else Strconv.ofDecimal 11 52 (Strconv.shortest eb mb m e).1 (Strconv.shortest eb mb m e).2).map
        fun p => .fin neg p.1 p.2 := by
  by_cases hm : m = 0
  · rw [floatText]
    simp only [hm, if_true]
    have := numberOf_read (decimal_numberOf neg 0)
    rw [List.append_nil, value_decimal] at this
    rw [show [48] = decimal 0 by rw [decimal]; rfl]
    exact this
  · rw [if_neg hm]
    exact denotes_read (floatText_denotes eb mb neg e hm h)

theorem isFloat_IsFloat {eb mb : Nat} {neg : Bool} {m : Nat} {e : Int} (heb : 2 ≤ eb) (h : Cbor.isFloat eb mb (.fin neg m e) = true) :
    Strconv.IsFloat eb mb m e := by
  have h4 : 2 ^ 1 ≤ 2 ^ (eb - 1) := Nat.pow_le_pow_right (by decide) (by omega)
  have h5 : 2 ^ eb = 2 * 2 ^ (eb - 1) := by rw [← Nat.pow_succ', Nat.succ_eq_add_one, Nat.sub_add_cancel (by omega)]
  have c1 : (2 : Int) ^ (eb - 1) = ((2 ^ (eb - 1) : Nat) : Int) := by push_cast; rfl
  have c2 : (2 : Int) ^ eb = ((2 ^ eb : Nat) : Int) := by push_cast; rfl
  unfold Strconv.IsFloat Strconv.lowest
  have hb : Cbor.bias eb = ((2 ^ (eb - 1) : Nat) : Int) - 1 := by rw [← c1]; rfl
  have h7 : (m < 2 ^ mb ∧ e = 1 - Cbor.bias eb - mb) ∨
      (¬ m < 2 ^ mb ∧ (m < 2 ^ (mb + 1) ∧ 1 - Cbor.bias eb - mb ≤ e) ∧ e ≤ 2 ^ eb - 2 - Cbor.bias eb - mb) := by
    rw [Cbor.isFloat] at h
    split at h
    · rename_i hm
      exact .inl ⟨hm, beq_iff_eq.1 h⟩
    · rename_i hm
      simp only [Bool.and_eq_true, decide_eq_true_eq] at h
      exact .inr ⟨hm, h⟩
  rw [hb, c2, h5] at h7
  rw [h5]
  generalize 2 ^ (eb - 1) = P at *
  rcases h7 with ⟨hm, h⟩ | ⟨hm, h⟩
  · exact ⟨0, by omega, by omega, by rw [Nat.pow_succ]; omega, fun _ => rfl⟩
  · obtain ⟨⟨h6, h7⟩, h8⟩ := h
    exact ⟨(e + (P - 2 + mb : Nat)).toNat, by omega, by omega, h6, fun h => absurd h hm⟩

/-- A `float64` survives. -/
theorem float64_read (neg : Bool) (m : Nat) (e : Int) (hf : Strconv.IsFloat 11 52 m e) :
    isNumber (floatText 11 52 neg m e) = true ∧ number (floatText 11 52 neg m e) = some (.fin neg m e) := by
  obtain ⟨h1, h2⟩ := floatText_read 11 52 neg m e hf
  refine ⟨h1, h2.trans ?_⟩
  by_cases hm : m = 0
  · subst hm
    have he : e = -1074 := by
      obtain ⟨j, -, rfl, -, h0⟩ := hf
      rw [h0 (by decide)]; rfl
    rw [if_pos rfl, he]
    have : Strconv.round 11 52 0 1 = some (0, -1074) := Strconv.round_exact (by decide) (he ▸ hf) (by rw [Nat.zero_mul, Nat.zero_mul, Nat.zero_mul])
    rw [this]
    rfl
  · rw [if_neg hm, (Strconv.shortest_reads hm hf).2]
    rfl

theorem float64_text (neg : Bool) (m : Nat) (e : Int) (h : Cbor.isFloat 11 52 (.fin neg m e) = true) :
    isNumber (floatText 11 52 neg m e) = true ∧ number (floatText 11 52 neg m e) = some (.fin neg m e) :=
  float64_read neg m e (isFloat_IsFloat (by decide) h)

/-- A `float32` is read as the `float64` nearest to its shortest decimal. -/
theorem float32_read (neg : Bool) (m : Nat) (e : Int) (hf : Strconv.IsFloat 8 23 m e) :
    isNumber (floatText 8 23 neg m e) = true ∧ number (floatText 8 23 neg m e) = some (jsonF32 (.fin neg m e)) := by
  obtain ⟨h1, h2⟩ := floatText_read 8 23 neg m e hf
  refine ⟨h1, h2.trans ?_⟩
  rw [jsonF32]
  have : ∃ p, (if m = 0 then Strconv.round 11 52 0 1 else Strconv.ofDecimal 11 52 (Strconv.shortest 8 23 m e).1 (Strconv.shortest 8 23 m e).2) = some p := by
    by_cases hm : m = 0
    · rw [if_pos hm]
      obtain ⟨m, e, hp⟩ := round_word 0 (by decide)
      exact ⟨_, hp⟩
    · rw [if_neg hm]
      exact round_32 _ _ (Nat.pow_pos (by decide)) _ (Strconv.shortest_reads hm hf).2
  obtain ⟨⟨m', e'⟩, hp⟩ := this
  rw [hp]
  rfl

theorem float32_text (neg : Bool) (m : Nat) (e : Int) (h : Cbor.isFloat 8 23 (.fin neg m e) = true) :
    isNumber (floatText 8 23 neg m e) = true ∧ number (floatText 8 23 neg m e) = some (jsonF32 (.fin neg m e)) :=
  float32_read neg m e (isFloat_IsFloat (by decide) h)

end Wamp.Json
