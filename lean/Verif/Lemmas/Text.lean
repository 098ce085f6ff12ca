import Verif.Lemmas.Json
import Verif.Model.Challenge
import Verif.Props.Encoding
/-!
# Text that is UTF-8 and not too long
-/
namespace Wamp.Json
open Wamp Wamp.Cbor

theorem valid_cons {a : UInt8} (h : a.toNat < 0x80) (s : Str) : validUtf8 (a :: s) = validUtf8 s := by
  rw [validUtf8.eq_def]; simp only [h, if_true]

theorem valid_append (s t : Str) (hs : validUtf8 s = true) (ht : validUtf8 t = true) : validUtf8 (s ++ t) = true := by
  induction s using validUtf8.induct with
  | case1 => exact ht
  | case2 a r h ih =>
    rw [valid_cons h] at hs
    rw [List.cons_append, valid_cons h]
    exact ih hs
  | case3 a h => rw [validUtf8.eq_def] at hs; simp [h] at hs
  | case4 a h b r h2 ih =>
    rw [validUtf8.eq_def] at hs ⊢
    simp only [List.cons_append, h, if_false, h2, if_true] at hs ⊢
    exact ih hs
  | case5 a h b h2 => rw [validUtf8.eq_def] at hs; simp only [h, h2, if_false] at hs; cases hs
  | case6 a h b h2 c r h3 ih =>
    rw [validUtf8.eq_def] at hs ⊢
    simp only [List.cons_append, h, if_false, h2, h3, if_true] at hs ⊢
    exact ih hs
  | case7 a h b h2 c h3 => rw [validUtf8.eq_def] at hs; simp only [h, h2, h3, if_false] at hs; cases hs
  | case8 a h b h2 c h3 d r h4 ih =>
    rw [validUtf8.eq_def] at hs ⊢
    simp only [List.cons_append, h, if_false, h2, h3, h4, if_true] at hs ⊢
    exact ih hs
  | case9 a h b h2 c h3 d r h4 => rw [validUtf8.eq_def] at hs; simp only [h, h2, h3, h4, if_false] at hs; cases hs

/-- ASCII -/
def ascii (s : Str) : Bool := s.all fun c => decide (c.toNat < 0x80)

theorem ascii_valid (s : Str) (h : ascii s = true) : validUtf8 s = true := by
  induction s with
  | nil => rfl
  | cons a s ih =>
    simp only [ascii, List.all_cons, Bool.and_eq_true, decide_eq_true_eq] at h
    rw [valid_cons h.1]
    exact ih h.2

theorem escByte_ascii_all : ∀ n : Fin 128, (ascii (escByte (UInt8.ofNat n.val)) && decide ((escByte (UInt8.ofNat n.val)).length ≤ 6)) = true := by
  decide +kernel

theorem escByte_ascii (a : UInt8) (h : a.toNat < 0x80) : ascii (escByte a) = true ∧ (escByte a).length ≤ 6 := by
  have := escByte_ascii_all ⟨a.toNat, h⟩
  simp only [UInt8.ofNat_toNat, Bool.and_eq_true, decide_eq_true_eq] at this
  exact this

theorem escThree_valid (a b c : UInt8) (ha : ¬ a.toNat < 0x80) (h2 : two a b = false) (h3 : three a b c = true) :
    validUtf8 (escThree a b c) = true ∧ (escThree a b c).length ≤ 18 := by
  unfold escThree
  split
  · rename_i h
    obtain ⟨-, -, rfl | rfl⟩ := h <;> decide +kernel
  · refine ⟨?_, by simp⟩
    rw [validUtf8.eq_def]
    unfold two at h2
    unfold three at h3
    simp only [ha, h2, if_false, Bool.false_eq_true]
    rw [if_pos h3]
    rfl

theorem escape_valid (s : Str) : validUtf8 (escape s) = true ∧ (escape s).length ≤ 6 * s.length := by
  have hb : validUtf8 badRune = true ∧ badRune.length = 6 := by decide +kernel
  have key : ∀ n, ∀ s : Str, s.length ≤ n → validUtf8 (escape s) = true ∧ (escape s).length ≤ 6 * s.length := by
    intro n
    induction n with
    | zero => intro s hs; cases s with
      | nil => exact ⟨rfl, by simp [escape]⟩
      | cons a s => simp at hs
    | succ n ih =>
      intro s hs
      rcases s with _ | ⟨a, r1⟩
      · exact ⟨rfl, by simp [escape]⟩
      rw [escape.eq_def]
      simp only [List.length_cons] at hs ⊢
      by_cases ha : a.toNat < 0x80
      · simp only [ha, if_true, List.length_append]
        have h1 := ih r1 (by omega)
        have h2 := escByte_ascii a ha
        exact ⟨valid_append _ _ (ascii_valid _ h2.1) h1.1, by omega⟩
      simp only [ha, if_false]
      rcases r1 with _ | ⟨b, r2⟩
      · exact ⟨hb.1, by simp only [hb.2]; simp⟩
      simp only [List.length_cons] at hs ⊢
      by_cases h2 : two a b
      · simp only [h2, if_true, List.length_cons]
        have h1 := ih r2 (by omega)
        refine ⟨?_, by omega⟩
        rw [validUtf8.eq_def]
        unfold two at h2
        simp only [ha, h2, if_false, if_true]
        exact h1.1
      simp only [h2, Bool.false_eq_true, if_false]
      rcases r2 with _ | ⟨c, r3⟩
      · have h1 := ih [b] (by simp only [List.length_cons, List.length_nil] at hs ⊢; omega)
        simp only [List.length_append, List.length_cons, List.length_nil] at h1 ⊢
        exact ⟨valid_append _ _ hb.1 h1.1, by omega⟩
      simp only [List.length_cons] at hs ⊢
      by_cases h3 : three a b c
      · simp only [h3, if_true, List.length_append]
        have h1 := ih r3 (by omega)
        have h0 := escThree_valid a b c ha (by simpa using h2) h3
        exact ⟨valid_append _ _ h0.1 h1.1, by omega⟩
      simp only [h3, Bool.false_eq_true, if_false]
      rcases r3 with _ | ⟨d, r4⟩
      · have h1 := ih [b, c] (by simp only [List.length_cons, List.length_nil] at hs ⊢; omega)
        simp only [List.length_append, List.length_cons, List.length_nil] at h1 ⊢
        exact ⟨valid_append _ _ hb.1 h1.1, by omega⟩
      simp only [List.length_cons] at hs ⊢
      by_cases h4 : four a b c d
      · simp only [h4, if_true, List.length_cons]
        have h1 := ih r4 (by omega)
        refine ⟨?_, by omega⟩
        rw [validUtf8.eq_def]
        unfold two at h2
        unfold three at h3
        unfold four at h4
        simp only [ha, h2, if_false, Bool.false_eq_true]
        rw [if_neg h3, if_pos h4]
        exact h1.1
      · simp only [h4, Bool.false_eq_true, if_false]
        have h1 := ih (b :: c :: d :: r4) (by simp only [List.length_cons] at hs ⊢; omega)
        simp only [List.length_append, List.length_cons] at h1 ⊢
        exact ⟨valid_append _ _ hb.1 h1.1, by omega⟩
  exact key s.length s (Nat.le_refl _)

theorem quote_valid (s : Str) : validUtf8 (quote s) = true ∧ (quote s).length ≤ 6 * s.length + 2 := by
  have h := escape_valid s
  constructor
  · rw [quote, valid_cons (by decide)]
    exact valid_append _ _ h.1 (by decide +kernel)
  · simp only [quote, List.length_cons, List.length_append, List.length_nil]; omega

theorem plain_valid (s : Str) (h : s.all plain = true) : validUtf8 s = true := by
  refine ascii_valid s ?_
  simp only [ascii, List.all_eq_true] at h ⊢
  intro x hx
  have := h x hx
  revert this
  unfold plain
  simp only [Bool.and_eq_true, decide_eq_true_eq]
  intro h
  omega

theorem decimal_valid (n : Nat) : validUtf8 (decimal n) = true := by
  refine ascii_valid _ ?_
  have := digits_all (decimal_digits n)
  simp only [ascii, List.all_eq_true] at this ⊢
  intro x hx
  have := this x hx
  simp only [isDigit, within, Bool.and_eq_true, decide_eq_true_eq] at this ⊢
  omega

theorem decimal_length (k n : Nat) (h : n < 10 ^ (k + 1)) : (decimal n).length ≤ k + 1 := by
  induction k generalizing n with
  | zero => rw [decimal, if_pos (by simpa using h)]; simp
  | succ k ih =>
    rw [decimal]
    split
    · simp
    · have := ih (n / 10) (by rw [Nat.pow_succ] at h; omega)
      simp only [List.length_append, List.length_cons, List.length_nil]
      omega

theorem b64Encode_length (b : Str) : (b64Encode b).length ≤ 4 * b.length + 4 := by
  induction b using b64Encode.induct with
  | case1 => simp [b64Encode]
  | case2 a => simp [b64Encode]
  | case3 a b => simp [b64Encode]
  | case4 a b c r ih => simp only [b64Encode, List.length_cons] at ih ⊢; omega

theorem hexDigit_ascii : ∀ n : Fin 16, (hexDigit n.val).toNat < 0x80 := by decide +kernel

theorem hexEncode_ascii (b : Str) : ascii (hexEncode b) = true := by
  induction b with
  | nil => rfl
  | cons a r ih =>
    have := a.toNat_lt
    have h1 := hexDigit_ascii ⟨a.toNat / 16, by omega⟩
    have h2 := hexDigit_ascii ⟨a.toNat % 16, by omega⟩
    simp only [hexEncode, ascii, List.all_cons, Bool.and_eq_true, decide_eq_true_eq]
    exact ⟨h1, h2, ih⟩

end Wamp.Json
