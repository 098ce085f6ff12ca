import Verif.Spec.Json
import Verif.Lemmas.Cbor
import Verif.Lemmas.JsonNumber
/-! # Lemmas about the JSON model -/
namespace Wamp.Json
open Wamp Wamp.Cbor

/-! ### Text -/

theorem prepend_some (p t s : Str) : prepend p (some (t, s)) = some (p ++ t, s) := rfl

theorem unescape_quote (rest : Str) : unescape none (0x22 :: rest) = some ([], rest) := by
  rw [unescape.eq_def]
  simp [flush]

/-- The three ways in which an ASCII byte is written. -/
def escapeCase (a : UInt8) : Bool :=
  (decide (escByte a = [a] ∧ a ≠ 0x22 ∧ a ≠ 0x5c ∧ ¬ a < 0x20)) ||
  (match escByte a with
   | [p, c] => decide (p = 0x5c ∧ c ≠ 0x75 ∧ simpleEscape c = some a)
   | [p, u, z1, z2, x, y] => decide (p = 0x5c ∧ u = 0x75 ∧ hex4 z1 z2 x y = some a.toNat ∧ utf8 a.toNat = [a])
   | _ => false)

theorem escapeCase_all : ∀ n : Fin 128, escapeCase (UInt8.ofNat n.val) = true := by decide +kernel

theorem unescape_unit (hi : Option Nat) (h1 h2 h3 h4 : UInt8) (n : Nat) (h : hex4 h1 h2 h3 h4 = some n) (s : Str) :
    unescape hi (0x5c :: 0x75 :: h1 :: h2 :: h3 :: h4 :: s) = prepend (unit hi n).1 (unescape (unit hi n).2 s) := by
  rw [unescape.eq_def]
  simp only [show ¬ (0x5c : UInt8) = 0x22 by decide, if_false, if_true, h]

/-- One byte: what is written for it is read as it. -/
theorem unescape_escByte (a : UInt8) (h : a.toNat < 0x80) (s : Str) : unescape none (escByte a ++ s) = prepend [a] (unescape none s) := by
  have hc : escapeCase a = true := by
    have := escapeCase_all ⟨a.toNat, h⟩
    simpa using this
  rw [escapeCase, Bool.or_eq_true] at hc
  rcases hc with hc | hc
  · simp only [decide_eq_true_eq] at hc
    obtain ⟨h1, h2, h3, h4⟩ := hc
    rw [h1, List.cons_append, List.nil_append, unescape.eq_def]
    simp only [h2, h3, h4, h, if_false, if_true, flush, List.nil_append]
  · split at hc
    · rename_i p c he
      simp only [decide_eq_true_eq] at hc
      obtain ⟨rfl, h1, h2⟩ := hc
      rw [he, List.cons_append, List.cons_append, List.nil_append, unescape.eq_def]
      simp only [show ¬ (0x5c : UInt8) = 0x22 by decide, if_false, if_true, h1, h2, flush, List.nil_append]
    · rename_i p u z1 z2 x y he
      simp only [decide_eq_true_eq] at hc
      obtain ⟨rfl, rfl, h1, h2⟩ := hc
      rw [he]
      refine (unescape_unit none z1 z2 x y _ h1 s).trans ?_
      rw [unit, if_pos (by omega), h2]
      rfl
    · cases hc

theorem unescape_badRune (s : Str) : unescape none (badRune ++ s) = prepend replacement (unescape none s) := by
  refine (unescape_unit none 0x66 0x66 0x66 0x64 0xfffd (by decide) s).trans ?_
  rfl

theorem not_low {a : UInt8} (h : ¬ a.toNat < 0x80) : a ≠ 0x22 ∧ a ≠ 0x5c ∧ ¬ a < 0x20 := by
  refine ⟨?_, ?_, ?_⟩
  · rintro rfl; exact h (by decide)
  · rintro rfl; exact h (by decide)
  · rw [UInt8.lt_iff_toNat_lt]
    have : (0x20 : UInt8).toNat = 32 := rfl
    omega

theorem unescape_three (a b c : UInt8) (ha : ¬ a.toNat < 0x80) (h2 : two a b = false) (h3 : three a b c = true) (s : Str) :
    unescape none (escThree a b c ++ s) = prepend [a, b, c] (unescape none s) := by
  obtain ⟨n1, n2, n3⟩ := not_low ha
  rw [escThree]
  split
  · rename_i h
    obtain ⟨rfl, rfl, rfl | rfl⟩ := h
    · exact unescape_unit none 0x32 0x30 0x32 0x38 0x2028 (by decide) s
    · exact unescape_unit none 0x32 0x30 0x32 0x39 0x2029 (by decide) s
  · rw [List.cons_append, List.cons_append, List.cons_append, List.nil_append, unescape.eq_def]
    simp only [n1, n2, n3, ha, h2, h3, if_false, if_true, flush, List.nil_append, Bool.false_eq_true]

/-- Whatever is written as a string is read as the same text, with U+FFFD for every byte that is not UTF-8. -/
theorem unescape_escape (s rest : Str) : unescape none (escape s ++ 0x22 :: rest) = some (clean s, rest) := by
  match s with
  | [] => exact unescape_quote rest
  | a :: r1 =>
    rw [escape.eq_def, clean.eq_def]
    by_cases ha : a.toNat < 0x80
    · simp only [ha, if_true]
      rw [List.append_assoc, unescape_escByte a ha, unescape_escape r1, prepend_some]
      rfl
    obtain ⟨n1, n2, n3⟩ := not_low ha
    simp only [ha, if_false]
    match r1 with
    | [] =>
      simp only
      rw [unescape_badRune, unescape_quote]
      rfl
    | b :: r2 =>
      simp only
      by_cases h2 : two a b
      · simp only [h2, if_true]
        rw [List.cons_append, List.cons_append, unescape.eq_def]
        simp only [n1, n2, n3, ha, h2, if_false, if_true, flush, List.nil_append]
        rw [unescape_escape r2]
        rfl
      simp only [h2]
      match r2 with
      | [] =>
        simp only [Bool.false_eq_true, if_false]
        rw [List.append_assoc, unescape_badRune, unescape_escape [b]]
        rfl
      | c :: r3 =>
        simp only [Bool.false_eq_true, if_false]
        by_cases h3 : three a b c
        · simp only [h3, if_true]
          rw [List.append_assoc, unescape_three a b c ha (by simpa using h2) h3, unescape_escape r3]
          rfl
        simp only [h3]
        match r3 with
        | [] =>
          simp only [Bool.false_eq_true, if_false]
          rw [List.append_assoc, unescape_badRune, unescape_escape [b, c]]
          rfl
        | d :: r4 =>
          simp only [Bool.false_eq_true, if_false]
          by_cases h4 : four a b c d
          · simp only [h4, if_true]
            rw [List.cons_append, List.cons_append, List.cons_append, List.cons_append, unescape.eq_def]
            simp only [n1, n2, n3, ha, h2, h3, h4, if_false, if_true, flush, List.nil_append, Bool.false_eq_true]
            rw [unescape_escape r4]
            rfl
          · simp only [h4]
            simp only [Bool.false_eq_true, if_false]
            rw [List.append_assoc, unescape_badRune, unescape_escape (b :: c :: d :: r4)]
            rfl
termination_by s.length

/-- UTF-8 is left alone. -/
theorem clean_valid (s : Str) (h : validUtf8 s = true) : clean s = s := by
  have key : ∀ n, ∀ s : Str, s.length ≤ n → validUtf8 s = true → clean s = s := by
    intro n
    induction n with
    | zero =>
      intro s hs _
      cases s with
      | nil => rfl
      | cons a s => simp at hs
    | succ n ih =>
      intro s hs h
      rcases s with _ | ⟨a, r1⟩
      · rfl
      rw [clean.eq_def]
      rw [validUtf8.eq_def] at h
      simp only [List.length_cons] at h hs ⊢
      by_cases ha : a.toNat < 0x80
      · simp only [ha, if_true] at h ⊢
        rw [ih r1 (by omega) h]
      simp only [ha, if_false] at h ⊢
      rcases r1 with _ | ⟨b, r2⟩
      · cases h
      simp only [List.length_cons] at h hs ⊢
      rw [show (within a 0xc2 0xdf && within b 0x80 0xbf) = two a b from rfl] at h
      by_cases h2 : two a b
      · simp only [h2, if_true] at h ⊢
        rw [ih r2 (by omega) h]
      simp only [h2, Bool.false_eq_true, if_false] at h ⊢
      rcases r2 with _ | ⟨c, r3⟩
      · cases h
      simp only [List.length_cons] at h hs ⊢
      by_cases h3 : three a b c
      · have h3' := h3
        unfold three at h3'
        rw [if_pos h3'] at h
        simp only [h3, if_true]
        rw [ih r3 (by omega) h]
      have h3' := h3
      unfold three at h3'
      rw [if_neg h3'] at h
      simp only [h3, Bool.false_eq_true, if_false]
      rcases r3 with _ | ⟨d, r4⟩
      · cases h
      simp only [List.length_cons] at h hs ⊢
      by_cases h4 : four a b c d
      · have h4' := h4
        unfold four at h4'
        rw [if_pos h4'] at h
        simp only [h4, if_true]
        rw [ih r4 (by omega) h]
      · have h4' := h4
        unfold four at h4'
        rw [if_neg h4'] at h
        cases h
  exact key s.length s (Nat.le_refl _) h

/-! ### Base64 -/

/-- Characters that need no escape. -/
def plain (c : UInt8) : Bool := decide (c ≠ 0x22 ∧ c ≠ 0x5c ∧ ¬ c < 0x20 ∧ c.toNat < 0x80)

theorem unescape_plain (s rest : Str) (h : s.all plain = true) : unescape none (s ++ 0x22 :: rest) = some (s, rest) := by
  induction s with
  | nil => exact unescape_quote rest
  | cons c s ih =>
    simp only [List.all_cons, Bool.and_eq_true, plain, decide_eq_true_eq] at h
    obtain ⟨⟨h1, h2, h3, h4⟩, h⟩ := h
    rw [List.cons_append, unescape.eq_def]
    simp only [h1, h2, h3, h4, if_false, if_true, flush, List.nil_append]
    rw [ih (by simpa [plain] using h)]
    rfl

theorem b64Char_plain : ∀ n : Fin 64, plain (b64Char n.val) = true := by decide +kernel

theorem b64Encode_plain (b : Str) : (b64Encode b).all plain = true := by
  have h : ∀ n, n < 64 → plain (b64Char n) = true := fun n hn => b64Char_plain ⟨n, hn⟩
  have hp : plain b64Pad = true := by decide
  match b with
  | [] => rfl
  | [a] =>
    have := a.toNat_lt
    simp [b64Encode, List.all_cons, hp, h (a.toNat / 4) (by omega), h (a.toNat % 4 * 16) (by omega)]
  | [a, b] =>
    have := a.toNat_lt
    have := b.toNat_lt
    simp [b64Encode, List.all_cons, hp, h (a.toNat / 4) (by omega), h (a.toNat % 4 * 16 + b.toNat / 16) (by omega),
      h (b.toNat % 16 * 4) (by omega)]
  | a :: b :: c :: rest =>
    have := a.toNat_lt
    have := b.toNat_lt
    have := c.toNat_lt
    rw [b64Encode]
    simp only [List.all_cons, h (a.toNat / 4) (by omega), h (a.toNat % 4 * 16 + b.toNat / 16) (by omega),
      h (b.toNat % 16 * 4 + c.toNat / 64) (by omega), h (c.toNat % 64) (by omega), b64Encode_plain rest, Bool.and_self]
termination_by b.length

/-! ### Characters of numbers -/

theorem digit_numChar {c : UInt8} (h : isDigit c = true) : numChar c = true := by
  rw [numChar, h]; rfl

theorem all_mono {s : Str} (h : s.all isDigit = true) : s.all numChar = true := by
  rw [List.all_eq_true] at h ⊢
  exact fun c hc => digit_numChar (h c hc)

theorem all_split {s : Str} (h : (s.dropWhile isDigit).all numChar = true) : s.all numChar = true := by
  rw [← List.takeWhile_append_dropWhile (p := isDigit) (l := s), List.all_append, h, Bool.and_true]
  apply all_mono
  rw [List.all_eq_true]
  intro c hc
  have h : ∀ s : Str, ∀ c ∈ s.takeWhile isDigit, isDigit c = true := by
    intro s
    induction s with
    | nil => intro c hc; cases hc
    | cons d s ih =>
      intro c hc
      rw [List.takeWhile_cons] at hc
      split at hc
      · rcases List.mem_cons.1 hc with rfl | hc
        · assumption
        · exact ih c hc
      · cases hc
  exact h s c hc

theorem exponent_all {s : Str} (h : optExponent s = true) : s.all numChar = true := by
  cases s with
  | nil => rfl
  | cons c r =>
    simp only [optExponent, Bool.and_eq_true, Bool.or_eq_true, decide_eq_true_eq] at h
    rw [List.all_cons]
    have hc : numChar c = true := by rcases h.1 with rfl | rfl <;> rfl
    rw [hc, Bool.true_and]
    have h := h.2
    cases r with
    | nil => rfl
    | cons d r =>
      simp only [exponent, Bool.or_eq_true, decide_eq_true_eq] at h
      split at h
      · rename_i hd
        rw [List.all_cons, all_mono (digits_all h)]
        rcases hd with rfl | rfl <;> rfl
      · exact all_mono (digits_all h)

theorem unsigned_all {s : Str} (h : unsigned s = true) : s.all numChar = true := by
  rw [unsigned, Bool.and_eq_true] at h
  refine all_split ?_
  have h := h.2
  revert h
  cases s.dropWhile isDigit with
  | nil => intro _; rfl
  | cons c r =>
    intro h
    rw [fraction] at h
    split at h
    · rename_i hc
      subst hc
      rw [Bool.and_eq_true] at h
      rw [List.all_cons, all_split (exponent_all h.2)]
      rfl
    · exact exponent_all h

theorem number_all {s : Str} (h : isNumber s = true) : s.all numChar = true ∧ s ≠ [] := by
  cases s with
  | nil => cases h
  | cons c r =>
    refine ⟨?_, by simp⟩
    rw [isNumber] at h
    split at h
    · rename_i hc
      subst hc
      rw [List.all_cons, unsigned_all h]
      rfl
    · exact unsigned_all h

/-! ### Values -/

/-- What may follow a value. -/
def Ends (rest : Str) : Prop := ∀ c r, rest = c :: r → numChar c = false

/-- A possible first byte of a value. -/
def start (c : UInt8) : Bool := !isSpace c && decide (c ≠ 0x5d)

theorem skip_start {c : UInt8} (h : start c = true) (s : Str) : skip (c :: s) = c :: s := by
  simp only [start, Bool.and_eq_true, Bool.not_eq_true'] at h
  simp [skip, h.1]

/-- The first bytes of numbers. -/
def numStart (c : UInt8) : Bool := !numChar c || (decide (c ≠ 0x22 ∧ c ≠ 0x5b ∧ c ≠ 0x7b) && start c)

theorem numStart_all : ∀ n : Fin 256, numStart (UInt8.ofNat n.val) = true := by decide +kernel

theorem numChar_start {c : UInt8} (h : numChar c = true) : c ≠ 0x22 ∧ c ≠ 0x5b ∧ c ≠ 0x7b ∧ start c = true := by
  have := numStart_all ⟨c.toNat, c.toNat_lt⟩
  simp only [UInt8.ofNat_toNat, numStart, h, Bool.not_true, Bool.false_or, Bool.and_eq_true, decide_eq_true_eq] at this
  exact ⟨this.1.1, this.1.2.1, this.1.2.2, this.2⟩

/-- `b` begins like a value and is read as `v`, up to its end. -/
def Reads (f : Str → Option (Val × Str)) (b : Str) (v : Val) : Prop :=
  (∃ c r, b = c :: r ∧ start c = true) ∧ ∀ rest, Ends rest → f (b ++ rest) = some (v, rest)

theorem reads_number (levels : Nat) (t : Str) (f : GoFloat) (h : isNumber t = true) (hf : number t = some f) :
    Reads (dec levels) t (.f64 f) := by
  obtain ⟨h1, h2⟩ := number_all h
  cases ht : t with
  | nil => exact absurd ht h2
  | cons c r =>
    have hc : numChar c = true := by rw [ht, List.all_cons, Bool.and_eq_true] at h1; exact h1.1
    obtain ⟨n1, n2, n3, n4⟩ := numChar_start hc
    refine ⟨⟨c, r, rfl, n4⟩, fun rest hr => ?_⟩
    obtain ⟨g1, g2⟩ := takeWhile_all h1 rest hr
    rw [ht] at g1 g2 h hf
    rw [List.cons_append] at g1 g2 ⊢
    rw [dec.eq_def, skip_start n4]
    simp only [n1, n2, n3, hc, if_false, if_true, g1, g2, h, hf]

theorem reads_quoted (levels : Nat) (b t : Str)
    (h : ∀ rest, unescape none (b ++ 0x22 :: rest) = some (t, rest)) : Reads (dec levels) (0x22 :: (b ++ [0x22])) (.str t) := by
  refine ⟨⟨_, _, rfl, by decide⟩, fun rest _ => ?_⟩
  rw [List.cons_append, dec.eq_def, skip_start (by decide)]
  simp only [if_true, List.append_assoc, List.cons_append, List.nil_append, h]

theorem reads_null (levels : Nat) : Reads (dec levels) (str "null") .nil := by
  refine ⟨⟨0x6e, str "ull", by decide, by decide⟩, fun rest _ => ?_⟩
  rw [show str "null" ++ rest = 0x6e :: 0x75 :: 0x6c :: 0x6c :: rest by rfl, dec.eq_def, skip_start (by decide)]
  rfl

theorem reads_bool (levels : Nat) (b : Bool) : Reads (dec levels) (if b then str "true" else str "false") (.bool b) := by
  cases b
  · refine ⟨⟨0x66, str "alse", by decide, by decide⟩, fun rest _ => ?_⟩
    rw [show (if false = true then str "true" else str "false") ++ rest = 0x66 :: 0x61 :: 0x6c :: 0x73 :: 0x65 :: rest by rfl, dec.eq_def,
      skip_start (by decide)]
    rfl
  · refine ⟨⟨0x74, str "rue", by decide, by decide⟩, fun rest _ => ?_⟩
    rw [show (if true = true then str "true" else str "false") ++ rest = 0x74 :: 0x72 :: 0x75 :: 0x65 :: rest by rfl, dec.eq_def,
      skip_start (by decide)]
    rfl

/-! ### Lists -/

theorem ends_cons {c : UInt8} (h : numChar c = false) (r : Str) : Ends (c :: r) := by
  intro c' r' he
  cases he
  exact h

/-- Items separated by commas. -/
theorem listOf_commas {α : Type} (f : Str → Option (α × Str)) (close : UInt8) (h1 : numChar close = false) (h2 : isSpace close = false)
    (h3 : close ≠ 0x2c) (ts : List (Str × α)) (hne : ts ≠ [])
    (h : ∀ t ∈ ts, ∀ rest, Ends rest → f (t.1 ++ rest) = some (t.2, rest)) (n : Nat) (hn : ts.length ≤ n) (rest : Str) :
    listOf f close n (commas (ts.map Prod.fst) ++ close :: rest) = some (ts.map Prod.snd, rest) := by
  induction ts generalizing n with
  | nil => exact absurd rfl hne
  | cons t ts ih =>
    rw [List.length_cons] at hn
    obtain ⟨n, rfl⟩ : ∃ k, n = k + 1 := ⟨n - 1, by omega⟩
    have ht := h t (List.mem_cons_self ..)
    cases ts with
    | nil =>
      simp only [List.map_cons, List.map_nil, commas]
      rw [listOf, ht _ (ends_cons h1 rest)]
      simp only [skip, List.dropWhile_cons, h2, Bool.false_eq_true, if_false, if_true]
    | cons u us =>
      have := ih (by simp) (fun t ht => h t (List.mem_cons_of_mem _ ht)) n (by omega)
      simp only [List.map_cons] at this ⊢
      rw [commas]
      · rw [listOf, List.append_assoc, List.cons_append, ht _ (ends_cons (by decide) _)]
        have hs : isSpace 0x2c = false := by decide
        simp only [skip, List.dropWhile_cons, hs, Bool.false_eq_true, if_false, show ¬ 0x2c = close from fun h => h3 h.symm, if_true, this]
      · simp

theorem length_commas (ps : List Str) (h : ∀ p ∈ ps, p ≠ []) : ps.length ≤ (commas ps).length := by
  induction ps with
  | nil => simp [commas]
  | cons a ps ih =>
    have ha : 0 < a.length := List.length_pos_iff.2 (h a (List.mem_cons_self ..))
    have := ih fun p hp => h p (List.mem_cons_of_mem _ hp)
    cases ps with
    | nil => simp only [commas, List.length_cons, List.length_nil]; omega
    | cons b ps =>
      rw [commas]
      · simp only [List.length_append, List.length_cons] at this ⊢
        omega
      · simp

theorem commas_head (a : Str) (ps : List Str) : ∃ t, commas (a :: ps) = a ++ t := by
  cases ps with
  | nil => exact ⟨[], by simp [commas]⟩
  | cons b ps => exact ⟨_, by rw [commas]; simp⟩

theorem items_commas {α : Type} (f : Str → Option (α × Str)) (close : UInt8) (h1 : numChar close = false) (h2 : isSpace close = false)
    (h3 : close ≠ 0x2c) (ts : List (Str × α)) (hb : ∀ t ∈ ts, ∃ c r, t.1 = c :: r ∧ isSpace c = false ∧ c ≠ close)
    (h : ∀ t ∈ ts, ∀ rest, Ends rest → f (t.1 ++ rest) = some (t.2, rest)) (rest : Str) :
    items f close (commas (ts.map Prod.fst) ++ close :: rest) = some (ts.map Prod.snd, rest) := by
  cases hts : ts with
  | nil =>
    simp only [List.map_nil, commas, List.nil_append, items, skip, List.dropWhile_cons, h2, Bool.false_eq_true, if_false, if_true]
  | cons t us =>
    obtain ⟨c, r, hc, g1, g2⟩ := hb t (by rw [hts]; exact List.mem_cons_self ..)
    obtain ⟨x, hx⟩ := commas_head t.1 (us.map Prod.fst)
    have hs : skip (commas (ts.map Prod.fst) ++ close :: rest) = c :: (r ++ (x ++ close :: rest)) := by
      rw [hts, List.map_cons, hx, hc]
      simp [skip, g1]
    rw [← hts, items, hs]
    simp only [g2, if_false]
    refine listOf_commas f close h1 h2 h3 ts (by rw [hts]; simp) h _ ?_ rest
    rw [List.length_append]
    have := length_commas (ts.map Prod.fst) (fun p hp => by
      obtain ⟨t, ht, rfl⟩ := List.mem_map.1 hp
      obtain ⟨c, r, hc, -⟩ := hb t ht
      rw [hc]; simp)
    rw [List.length_map] at this
    omega

theorem start_of {c : UInt8} (h : start c = true) : isSpace c = false ∧ c ≠ 0x5d := by
  simpa [start] using h

/-- A list whose elements are read, whatever follows. -/
theorem dec_list (levels : Nat) (ts : List (Str × Val)) (h : ∀ t ∈ ts, Reads (dec levels) t.1 t.2) (rest : Str) :
    dec (levels + 1) (0x5b :: (commas (ts.map Prod.fst) ++ [0x5d]) ++ rest) = some (.arr (ts.map Prod.snd), rest) := by
  rw [List.cons_append, dec.eq_def, skip_start (by decide)]
  simp only [show ¬ (0x5b : UInt8) = 0x22 by decide, if_false, if_true, List.append_assoc, List.cons_append, List.nil_append]
  rw [items_commas (dec levels) 0x5d (by decide) (by decide) (by decide) ts
    (fun t ht => by
      obtain ⟨⟨c, r, h1, h2⟩, -⟩ := h t ht
      exact ⟨c, r, h1, start_of h2⟩)
    (fun t ht => (h t ht).2)]

/-- A list whose elements are read. -/
theorem reads_list (levels : Nat) (ts : List (Str × Val)) (h : ∀ t ∈ ts, Reads (dec levels) t.1 t.2) :
    Reads (dec (levels + 1)) (0x5b :: (commas (ts.map Prod.fst) ++ [0x5d])) (.arr (ts.map Prod.snd)) :=
  ⟨⟨_, _, rfl, by decide⟩, fun rest _ => dec_list levels ts h rest⟩

/-- An entry of a map. -/
theorem readPair_quote (f : Str → Option (Val × Str)) (k b : Str) (hk : validUtf8 k = true) (v : Val) (h : Reads f b v) (rest : Str)
    (hr : Ends rest) : readPair f ((quote k ++ 0x3a :: b) ++ rest) = some ((k, v), rest) := by
  rw [readPair, quote, List.cons_append, List.cons_append, skip_start (by decide)]
  simp only [List.append_assoc, List.cons_append, List.nil_append, unescape_escape, clean_valid k hk]
  rw [skip_start (by decide)]
  simp only [h.2 rest hr]

/-! ### The round trip -/

section

/-- The value is written, and reading it gives its wire form and leaves what follows. -/
def Good (levels : Nat) (v : Val) : Prop := ∃ b, enc v = some b ∧ Reads (dec levels) b (jsonWire v)

theorem wireM_map (d : Dict) : wireM jsonLeaf d = d.map fun p => (p.1, jsonWire p.2) := by
  induction d with
  | nil => rfl
  | cons p d ih => obtain ⟨k, v⟩ := p; simp [wireM, ih, jsonWire]

theorem wireL_map (l : List Val) : wireL jsonLeaf l = l.map jsonWire := by
  induction l with
  | nil => rfl
  | cons p d ih => simp [wireL, ih, jsonWire]

theorem encL_good (levels : Nat) (l : List Val) (h : ∀ v ∈ l, Good levels v) :
    ∃ ts : List (Str × Val), encL l = some (ts.map Prod.fst) ∧ l.map jsonWire = ts.map Prod.snd ∧
      ∀ t ∈ ts, Reads (dec levels) t.1 t.2 := by
  induction l with
  | nil => exact ⟨[], rfl, rfl, by simp⟩
  | cons v l ih =>
    obtain ⟨ts, h1, h2, h3⟩ := ih fun q hq => h q (List.mem_cons_of_mem _ hq)
    obtain ⟨b, hb, hd⟩ := h v (List.mem_cons_self ..)
    refine ⟨(b, jsonWire v) :: ts, ?_, ?_, ?_⟩
    · simp only [encL, hb, h1, List.map_cons]
    · simp only [List.map_cons, h2]
    · intro t htm
      rcases List.mem_cons.1 htm with rfl | htm
      · exact hd
      · exact h3 t htm

theorem good_arr (levels : Nat) (l : List Val) (h : ∀ v ∈ l, Good levels v) : Good (levels + 1) (.arr l) := by
  obtain ⟨ts, h1, h2, h3⟩ := encL_good levels l h
  refine ⟨_, by simp only [enc, h1, Option.map_some]; rfl, ?_⟩
  simp only [jsonWire, wire, wireL_map]
  rw [show List.map (wire jsonLeaf) l = _ from h2]
  exact reads_list levels ts h3

theorem good_strs (levels : Nat) (l : List Str) (h : ∀ s ∈ l, validUtf8 s = true) : Good (levels + 1) (.strs l) := by
  refine ⟨_, rfl, ?_⟩
  have := reads_list levels (l.map fun s => (quote s, Val.str s)) (by
    intro t ht
    obtain ⟨s, hs, rfl⟩ := List.mem_map.1 ht
    refine reads_quoted levels (escape s) s fun rest => ?_
    rw [unescape_escape, clean_valid s (h s hs)])
  simp only [List.map_map] at this
  exact this

/-- A map whose values are read, whatever follows. -/
theorem dec_map (levels : Nat) (es : List (Str × Str × Val)) (hs : sortedKeys (es.map fun e => (e.1, e.2.2)) = true)
    (h : ∀ e ∈ es, validUtf8 e.1 = true ∧ Reads (dec levels) e.2.1 e.2.2) (rest : Str) :
    dec (levels + 1) (0x7b :: (commas (es.map fun e => quote e.1 ++ 0x3a :: e.2.1) ++ [0x7d]) ++ rest) =
      some (.map (es.map fun e => (e.1, e.2.2)), rest) := by
  rw [List.cons_append, dec.eq_def, skip_start (by decide)]
  simp only [show ¬ (0x7b : UInt8) = 0x22 by decide, show ¬ (0x7b : UInt8) = 0x5b by decide, if_false, if_true, List.append_assoc,
    List.cons_append, List.nil_append]
  have hi := items_commas (readPair (dec levels)) 0x7d (by decide) (by decide) (by decide)
    (es.map fun e => (quote e.1 ++ 0x3a :: e.2.1, e.1, e.2.2))
    (fun t ht => by
      obtain ⟨e, _, rfl⟩ := List.mem_map.1 ht
      exact ⟨0x22, _, rfl, by decide, by decide⟩)
    (fun t ht rest hr => by
      obtain ⟨e, he, rfl⟩ := List.mem_map.1 ht
      exact readPair_quote (dec levels) e.1 e.2.1 (h e he).1 e.2.2 (h e he).2 rest hr) rest
  rw [List.map_map, List.map_map] at hi
  rw [show (List.map (fun e : Str × Str × Val => quote e.1 ++ 0x3a :: e.2.1) es) =
    List.map (Prod.fst ∘ fun e : Str × Str × Val => (quote e.1 ++ 0x3a :: e.2.1, e.1, e.2.2)) es from rfl, hi]
  simp only
  rw [show (List.map (Prod.snd ∘ fun e : Str × Str × Val => (quote e.1 ++ 0x3a :: e.2.1, e.1, e.2.2)) es) =
    es.map (fun e => (e.1, e.2.2)) from rfl, foldl_perm hs (List.Perm.refl _)]

theorem good_map (levels : Nat) (d : Dict) (hs : sortedKeys d = true)
    (h : ∀ p ∈ d, validUtf8 p.1 = true ∧ Good levels p.2) : Good (levels + 1) (.map d) := by
  have key : ∀ d : Dict, (∀ p ∈ d, validUtf8 p.1 = true ∧ Good levels p.2) →
      ∃ es : List (Str × Str × Val), encM d = some (es.map fun e => quote e.1 ++ 0x3a :: e.2.1) ∧
        d.map (fun p => (p.1, jsonWire p.2)) = es.map (fun e => (e.1, e.2.2)) ∧
        ∀ e ∈ es, validUtf8 e.1 = true ∧ Reads (dec levels) e.2.1 e.2.2 := by
    intro d
    induction d with
    | nil => intro _; exact ⟨[], rfl, rfl, by simp⟩
    | cons p d ih =>
      intro h
      obtain ⟨es, h1, h2, h3⟩ := ih fun q hq => h q (List.mem_cons_of_mem _ hq)
      obtain ⟨ht, b, hb, hd⟩ := h p (List.mem_cons_self ..)
      obtain ⟨k, v⟩ := p
      refine ⟨(k, b, jsonWire v) :: es, ?_, ?_, ?_⟩
      · simp only [encM, hb, h1, List.map_cons]
      · simp only [List.map_cons, h2]
      · intro e he
        rcases List.mem_cons.1 he with rfl | he
        · exact ⟨ht, hd⟩
        · exact h3 e he
  obtain ⟨es, h1, h2, h3⟩ := key d h
  refine ⟨_, by simp only [enc, h1, Option.map_some]; rfl, ⟨_, _, rfl, by decide⟩, fun rest _ => ?_⟩
  rw [dec_map levels es (by rw [← h2, sortedKeys_map]; exact hs) h3, ← h2]
  simp only [jsonWire, wire, wireM_map]

mutual
/-- What fits is written and read back. -/
theorem good (levels : Nat) (v : Val) (h : fits levels v = true) : Good levels v := by
  cases v with
  | nil => exact ⟨_, rfl, reads_null levels⟩
  | bool b => exact ⟨_, rfl, reads_bool levels b⟩
  | arrNil => exact ⟨_, rfl, reads_null levels⟩
  | strsNil => exact ⟨_, rfl, reads_null levels⟩
  | mapNil => exact ⟨_, rfl, reads_null levels⟩
  | other t => simp [fits] at h
  | f32 f =>
    cases f with
    | fin neg m e => exact ⟨_, rfl, reads_number levels _ _ (float32_text neg m e h).1 (float32_text neg m e h).2⟩
    | inf neg => simp [fits, floatFits] at h
    | nan => simp [fits, floatFits] at h
  | int k v =>
    have h := of_decide_eq_true h
    exact ⟨_, rfl, reads_number levels _ _ (int_text v h).1 (int_text v h).2⟩
  | uint k n =>
    have h := of_decide_eq_true h
    exact ⟨_, rfl, reads_number levels _ _ (natural_text n h).1 (natural_text n h).2⟩
  | f64 f =>
    cases f with
    | fin neg m e => exact ⟨_, rfl, reads_number levels _ _ (float64_text neg m e h).1 (float64_text neg m e h).2⟩
    | inf neg => simp [fits, floatFits] at h
    | nan => simp [fits, floatFits] at h
  | str s =>
    refine ⟨_, rfl, reads_quoted levels (escape s) s fun rest => ?_⟩
    rw [unescape_escape, clean_valid s h]
  | named s =>
    refine ⟨_, rfl, reads_quoted levels (escape s) s fun rest => ?_⟩
    rw [unescape_escape, clean_valid s h]
  | bytes b => exact ⟨_, rfl, reads_quoted levels _ _ fun rest => unescape_plain _ rest (b64Encode_plain b)⟩
  | strs l =>
    simp only [fits, Bool.and_eq_true, decide_eq_true_eq, List.all_eq_true] at h
    obtain ⟨n, rfl⟩ : ∃ k, levels = k + 1 := ⟨levels - 1, by omega⟩
    exact good_strs n l h.2
  | arr l =>
    simp only [fits, Bool.and_eq_true, decide_eq_true_eq] at h
    obtain ⟨n, rfl⟩ : ∃ k, levels = k + 1 := ⟨levels - 1, by omega⟩
    exact good_arr n l (goodL n l h.2)
  | map d =>
    simp only [fits, Bool.and_eq_true, decide_eq_true_eq] at h
    obtain ⟨n, rfl⟩ : ∃ k, levels = k + 1 := ⟨levels - 1, by omega⟩
    exact good_map n d h.1.2 (goodM n d h.2)
termination_by sizeOf v
theorem goodL (levels : Nat) (l : List Val) (h : fitsL levels l = true) : ∀ v ∈ l, Good levels v := by
  cases l with
  | nil => intro v hv; cases hv
  | cons v l =>
    simp only [fitsL, Bool.and_eq_true] at h
    intro w hw
    rcases List.mem_cons.1 hw with hv | hw
    · rw [hv]; exact good levels v h.1
    · exact goodL levels l h.2 w hw
termination_by sizeOf l
theorem goodM (levels : Nat) (d : List (Str × Val)) (h : fitsM levels d = true) :
    ∀ p ∈ d, validUtf8 p.1 = true ∧ Good levels p.2 := by
  match d, h with
  | [], _ => intro v hv; cases hv
  | (k, v) :: d, h =>
    simp only [fitsM, Bool.and_eq_true] at h
    intro w hw
    rcases List.mem_cons.1 hw with hv | hw
    · rw [hv]; exact ⟨h.1.1, good levels v h.1.2⟩
    · exact goodM levels d h.2 w hw
termination_by sizeOf d
end

end

end Wamp.Json
