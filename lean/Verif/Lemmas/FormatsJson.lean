import Verif.Lemmas.Formats
import Verif.Lemmas.FormatsCbor
import Verif.Lemmas.Json
import Verif.Spec.FormatsJson
/-!
# JSON: writer and reader against RFC 8259
-/
namespace Wamp.Formats
open Wamp Wamp.Cbor

/-! ### Characters -/

theorem toNat_of (n : Nat) (h : n < 256) : (UInt8.ofNat n).toNat = n := UInt8.toNat_ofNat_of_lt' h

theorem ofNat_eq (n m : Nat) (hn : n < 256) (hm : m < 256) : (UInt8.ofNat n = UInt8.ofNat m) ↔ n = m := by
  constructor
  · intro h; have := congrArg UInt8.toNat h; rwa [toNat_of n hn, toNat_of m hm] at this
  · rintro rfl; rfl

/-- How many bytes a character takes, and that the reader sees that. -/
theorem char_cases (c : Char) :
    (c.val.toNat < 0x80 ∧ String.utf8EncodeChar c = [UInt8.ofNat c.val.toNat]) ∨
    (∃ x y, String.utf8EncodeChar c = [x, y] ∧ ¬ x.toNat < 0x80 ∧ Json.two x y = true) ∨
    (∃ x y z, String.utf8EncodeChar c = [x, y, z] ∧ ¬ x.toNat < 0x80 ∧ Json.two x y = false ∧ Json.three x y z = true ∧
      (c.val.toNat / 2 = 0x1014 ↔ x = 0xe2 ∧ y = 0x80 ∧ (z = 0xa8 ∨ z = 0xa9)) ∧ z.toNat % 64 = c.val.toNat % 64) ∨
    (∃ x y z w, String.utf8EncodeChar c = [x, y, z, w] ∧ ¬ x.toNat < 0x80 ∧ Json.two x y = false ∧ Json.three x y z = false ∧
      Json.four x y z w = true) := by
  have hv : c.val.toNat < 55296 ∨ 57343 < c.val.toNat ∧ c.val.toNat < 1114112 := c.valid
  generalize hn : c.val.toNat = n at hv
  unfold String.utf8EncodeChar
  simp only [hn]
  split
  · exact .inl ⟨by omega, rfl⟩
  split
  · refine .inr (.inl ⟨_, _, rfl, ?_, ?_⟩)
    · rw [toNat_of _ (by omega)]; omega
    · simp only [Json.two, within, toNat_of (n / 64 % 32 + 192) (by omega), toNat_of (n % 64 + 128) (by omega)]
      simp; omega
  split
  · refine .inr (.inr (.inl ⟨_, _, _, rfl, ?_, ?_, ?_, ?_, ?_⟩))
    · rw [toNat_of _ (by omega)]; omega
    · simp only [Json.two, within, toNat_of (n / 4096 % 16 + 224) (by omega), toNat_of (n / 64 % 64 + 128) (by omega)]
      simp <;> omega
    · simp only [Json.three, within, toNat_of (n / 4096 % 16 + 224) (by omega), toNat_of (n % 64 + 128) (by omega), toNat_of (n / 64 % 64 + 128) (by omega),
        show (0xe0 : UInt8) = UInt8.ofNat 0xe0 from rfl, show (0xed : UInt8) = UInt8.ofNat 0xed from rfl,
        ofNat_eq (n / 4096 % 16 + 224) 0xe0 (by omega) (by omega), ofNat_eq (n / 4096 % 16 + 224) 0xed (by omega) (by omega)]
      simp only [Bool.and_eq_true, decide_eq_true_eq]
      split <;> split <;> omega
    · simp only [show (0xe2 : UInt8) = UInt8.ofNat 0xe2 from rfl, show (0x80 : UInt8) = UInt8.ofNat 0x80 from rfl,
        show (0xa8 : UInt8) = UInt8.ofNat 0xa8 from rfl, show (0xa9 : UInt8) = UInt8.ofNat 0xa9 from rfl]
      rw [ofNat_eq _ _ (by omega) (by omega), ofNat_eq _ _ (by omega) (by omega), ofNat_eq _ _ (by omega) (by omega), ofNat_eq _ _ (by omega) (by omega)]
      omega
    · rw [toNat_of _ (by omega)]; omega
  · refine .inr (.inr (.inr ⟨_, _, _, _, rfl, ?_, ?_, ?_, ?_⟩))
    · rw [toNat_of _ (by omega)]; omega
    · simp only [Json.two, within, toNat_of (n / 262144 % 8 + 240) (by omega), toNat_of (n / 4096 % 64 + 128) (by omega)]
      simp <;> omega
    · simp only [Json.three, within, toNat_of (n / 262144 % 8 + 240) (by omega)]
      simp <;> omega
    · simp only [Json.four, within, toNat_of (n / 262144 % 8 + 240) (by omega), toNat_of (n / 4096 % 64 + 128) (by omega), toNat_of (n % 64 + 128) (by omega), toNat_of (n / 64 % 64 + 128) (by omega),
        show (0xf0 : UInt8) = UInt8.ofNat 0xf0 from rfl, show (0xf4 : UInt8) = UInt8.ofNat 0xf4 from rfl,
        ofNat_eq (n / 262144 % 8 + 240) 0xf0 (by omega) (by omega), ofNat_eq (n / 262144 % 8 + 240) 0xf4 (by omega) (by omega)]
      simp only [Bool.and_eq_true, decide_eq_true_eq]
      split <;> split <;> omega

theorem utf8_char (c : Char) : Json.utf8 c.val.toNat = String.utf8EncodeChar c := by
  have hv : c.val.toNat < 55296 ∨ 57343 < c.val.toNat ∧ c.val.toNat < 1114112 := c.valid
  generalize hn : c.val.toNat = n at hv
  unfold String.utf8EncodeChar Json.utf8
  simp only [hn]
  by_cases h1 : n < 0x80
  · rw [if_pos h1, if_pos (show n ≤ 127 by omega)]
  rw [if_neg h1, if_neg (show ¬ n ≤ 127 by omega)]
  by_cases h2 : n < 0x800
  · rw [if_pos h2, if_pos (show n ≤ 2047 by omega), show 0xc0 + n / 64 = n / 64 % 32 + 192 by omega, Nat.add_comm 0x80]
  rw [if_neg h2, if_neg (show ¬ n ≤ 2047 by omega)]
  by_cases h3 : n < 0x10000
  · rw [if_pos h3, if_pos (show n ≤ 65535 by omega), show 0xe0 + n / 4096 = n / 4096 % 16 + 224 by omega, Nat.add_comm 0x80, Nat.add_comm 0x80]
  · rw [if_neg h3, if_neg (show ¬ n ≤ 65535 by omega), show 0xf0 + n / 262144 = n / 262144 % 8 + 240 by omega, Nat.add_comm 0x80, Nat.add_comm 0x80,
      Nat.add_comm 0x80]

/-! ### Reading text -/

theorem hex_val {n : Nat} {h : UInt8} (hh : Hex n h) : hexVal h = some n := by
  have k1 : ∀ n : Fin 10, hexVal (UInt8.ofNat (48 + n.val)) = some n.val := by decide
  have k2 : ∀ n : Fin 16, 10 ≤ n.val → hexVal (UInt8.ofNat (87 + n.val)) = some n.val ∧ hexVal (UInt8.ofNat (55 + n.val)) = some n.val := by decide
  rcases hh with ⟨h1, rfl⟩ | ⟨h1, h2, rfl | rfl⟩
  · exact k1 ⟨n, h1⟩
  · exact (k2 ⟨n, h2⟩ h1).1
  · exact (k2 ⟨n, h2⟩ h1).2

theorem hex4_val {n : Nat} {s : Str} (h : Hex4 n s) : ∃ a b c d, s = [a, b, c, d] ∧ Json.hex4 a b c d = some n := by
  obtain ⟨a, b, c, d, h1, h2, h3, h4, rfl, rfl, g1, g2, g3, g4⟩ := h
  refine ⟨_, _, _, _, rfl, ?_⟩
  rw [Json.hex4, hex_val g1, hex_val g2, hex_val g3, hex_val g4]
  simp only [Option.some.injEq]
  omega

theorem prepend_prepend (a b : Str) (x : Option (Str × Str)) : Json.prepend a (Json.prepend b x) = Json.prepend (a ++ b) x := by
  cases x with
  | none => rfl
  | some p => simp [Json.prepend]

/-- A character that stands for itself. -/
theorem unescape_char (c : Char) (h1 : 0x20 ≤ c.val.toNat) (h2 : c ≠ '"') (h3 : c ≠ '\\') (t : Str) :
    Json.unescape none (String.utf8EncodeChar c ++ t) = Json.prepend (String.utf8EncodeChar c) (Json.unescape none t) := by
  rcases char_cases c with ⟨g1, g2⟩ | ⟨x, y, g1, g2, g3⟩ | ⟨x, y, z, g1, g2, g3, g4, -, -⟩ | ⟨x, y, z, w, g1, g2, g3, g4, g5⟩
  · have e2 : UInt8.ofNat c.val.toNat ≠ 0x22 := by
      rw [show (0x22 : UInt8) = UInt8.ofNat 0x22 from rfl, Ne, ofNat_eq _ _ (by omega) (by omega)]
      intro h
      exact h2 (Char.ext (UInt32.toNat_inj.1 h))
    have e3 : UInt8.ofNat c.val.toNat ≠ 0x5c := by
      rw [show (0x5c : UInt8) = UInt8.ofNat 0x5c from rfl, Ne, ofNat_eq _ _ (by omega) (by omega)]
      intro h
      exact h3 (Char.ext (UInt32.toNat_inj.1 h))
    have e4 : ¬ UInt8.ofNat c.val.toNat < 0x20 := by
      rw [UInt8.lt_iff_toNat_lt, toNat_of _ (by omega)]
      show ¬ c.val.toNat < 0x20
      omega
    rw [g2, List.cons_append, List.nil_append, Json.unescape.eq_def]
    simp only [e2, e3, e4, if_false, toNat_of c.val.toNat (by omega), g1, if_true, Json.flush, List.nil_append]
  · obtain ⟨e1, e2, e3⟩ := Json.not_low g2
    rw [g1, List.cons_append, List.cons_append, List.nil_append, Json.unescape.eq_def]
    simp only [e1, e2, e3, if_false, g2, g3, if_true, Json.flush, List.nil_append]
  · obtain ⟨e1, e2, e3⟩ := Json.not_low g2
    rw [g1, List.cons_append, List.cons_append, List.cons_append, List.nil_append, Json.unescape.eq_def]
    simp only [e1, e2, e3, if_false, g2, g3, g4, if_true, Json.flush, List.nil_append, Bool.false_eq_true]
  · obtain ⟨e1, e2, e3⟩ := Json.not_low g2
    rw [g1, List.cons_append, List.cons_append, List.cons_append, List.cons_append, List.nil_append, Json.unescape.eq_def]
    simp only [e1, e2, e3, if_false, g2, g3, g4, g5, if_true, Json.flush, List.nil_append, Bool.false_eq_true]

theorem unescape_short {c : Char} {e : UInt8} (h : (c, e) ∈ shorthands) (t : Str) :
    Json.unescape none (0x5c :: e :: t) = Json.prepend (String.utf8EncodeChar c) (Json.unescape none t) := by
  have key : ∀ p ∈ shorthands, p.2 ≠ 0x75 ∧ (Json.simpleEscape p.2).map (fun b => [b]) = some (String.utf8EncodeChar p.1) := by decide
  obtain ⟨h1, h2⟩ := key _ h
  rw [Json.unescape.eq_def]
  simp only [show ¬ (0x5c : UInt8) = 0x22 by decide, if_false, if_true, h1]
  cases hs : Json.simpleEscape e with
  | none => rw [hs] at h2; cases h2
  | some b =>
    rw [hs] at h2
    injection h2 with h2
    simp only [Json.flush, List.nil_append, h2]

theorem unit_first (n : Nat) (h1 : 0xd800 ≤ n) (h2 : n < 0xdc00) : Json.unit none n = ([], some n) := by
  rw [Json.unit, if_neg (by omega), if_pos h2]; rfl

theorem unit_second (h n : Nat) (h1 : 0xdc00 ≤ n) (h2 : n ≤ 0xdfff) :
    Json.unit (some h) n = (Json.utf8 (0x10000 + (h - 0xd800) * 0x400 + (n - 0xdc00)), none) := by
  rw [Json.unit, if_neg (by omega), if_neg (by omega)]

theorem pair_value (n a b : Nat) (h0 : 0x10000 ≤ n) (ha : a = 0xd800 + (n - 0x10000) / 0x400) (hb : b = 0xdc00 + (n - 0x10000) % 0x400) :
    0x10000 + (a - 0xd800) * 0x400 + (b - 0xdc00) = n := by omega

theorem unescape_pair (c : Char) (h0 : 0x10000 ≤ c.val.toNat) (h l : Str) (hh : Hex4 (0xd800 + (c.val.toNat - 0x10000) / 0x400) h)
    (hl : Hex4 (0xdc00 + (c.val.toNat - 0x10000) % 0x400) l) (t : Str) :
    Json.unescape none (0x5c :: 0x75 :: h ++ (0x5c :: 0x75 :: l ++ t)) = Json.prepend (String.utf8EncodeChar c) (Json.unescape none t) := by
  have hv : c.val.toNat < 1114112 := by
    have : c.val.toNat < 55296 ∨ 57343 < c.val.toNat ∧ c.val.toNat < 1114112 := c.valid
    omega
  rw [← utf8_char]
  generalize c.val.toNat = n at *
  generalize ha : 0xd800 + (n - 0x10000) / 0x400 = a at *
  generalize hb : 0xdc00 + (n - 0x10000) % 0x400 = b at *
  obtain ⟨a1, a2, a3, a4, rfl, h2⟩ := hex4_val hh
  obtain ⟨b1, b2, b3, b4, rfl, h3⟩ := hex4_val hl
  simp only [List.cons_append, List.nil_append]
  rw [Json.unescape_unit none a1 a2 a3 a4 _ h2, unit_first a (by omega) (by omega), Json.unescape_unit _ b1 b2 b3 b4 _ h3,
    unit_second a b (by omega) (by omega), prepend_prepend, pair_value n a b h0 ha.symm hb.symm]
  rfl

theorem unescape_hex (c : Char) (h : Str) (hh : Hex4 c.val.toNat h) (t : Str) :
    Json.unescape none (0x5c :: 0x75 :: h ++ t) = Json.prepend (String.utf8EncodeChar c) (Json.unescape none t) := by
  have hv : c.val.toNat < 55296 ∨ 57343 < c.val.toNat ∧ c.val.toNat < 1114112 := c.valid
  rw [← utf8_char]
  generalize c.val.toNat = n at *
  obtain ⟨a1, a2, a3, a4, rfl, h2⟩ := hex4_val hh
  simp only [List.cons_append, List.nil_append]
  rw [Json.unescape_unit none a1 a2 a3 a4 _ h2, Json.unit, if_pos (by omega)]
  rfl

theorem unescape_chars {cs : List Char} {s : Str} (h : Chars cs s) (t : Str) :
    Json.unescape none (s ++ t) = Json.prepend (utf8Of cs) (Json.unescape none t) := by
  induction h with
  | done => cases h : Json.unescape none t <;> simp [utf8Of, Json.prepend, h]
  | @plain c cs s h1 h2 h3 _ ih =>
    rw [List.append_assoc, unescape_char c h1 h2 h3, ih, prepend_prepend, utf8Of, utf8Of, List.flatMap_cons]
  | @short c e cs s h _ ih =>
    rw [List.cons_append, List.cons_append, unescape_short h, ih, prepend_prepend, utf8Of, utf8Of, List.flatMap_cons]
  | @hex c h cs s hh _ ih =>
    have := unescape_hex c h hh (s ++ t)
    simp only [List.cons_append, List.append_assoc] at this ⊢
    rw [this, ih, prepend_prepend, utf8Of, utf8Of, List.flatMap_cons]
  | @pair c h l cs s h0 hh hl _ ih =>
    simp only [List.cons_append, List.append_assoc]
    have := unescape_pair c h0 h l hh hl (s ++ t)
    simp only [List.cons_append] at this
    rw [this, ih, prepend_prepend, utf8Of, utf8Of, List.flatMap_cons]

theorem literal_read {t b : Str} (h : Literal t b) : ∃ s, b = 0x22 :: s ∧ ∀ rest, Json.unescape none (s ++ rest) = some (t, rest) := by
  obtain ⟨cs, s, rfl, h1, rfl⟩ := h
  refine ⟨_, rfl, fun rest => ?_⟩
  rw [List.append_assoc, unescape_chars h1, List.cons_append, List.nil_append, Json.unescape_quote]
  simp [Json.prepend]

/-! ### Numbers -/

/-! ### Reading -/

theorem isSpace_of {w : Str} (h : Space w) : ∀ c ∈ w, Json.isSpace c = true ∧ Json.numChar c = false := by
  intro c hc
  rcases h c hc with rfl | rfl | rfl | rfl <;> decide

theorem skip_space {w : Str} (h : Space w) (s : Str) : Json.skip (w ++ s) = Json.skip s := by
  induction w with
  | nil => rfl
  | cons c w ih =>
    rw [List.cons_append, Json.skip, List.dropWhile_cons, if_pos (isSpace_of h c (List.mem_cons_self ..)).1]
    exact ih fun x hx => h x (List.mem_cons_of_mem _ hx)

theorem dec_space (levels : Nat) {w : Str} (h : Space w) (s : Str) : Json.dec levels (w ++ s) = Json.dec levels s := by
  rw [Json.dec.eq_def, skip_space h, ← Json.dec.eq_def]

theorem ends_space {w : Str} (h : Space w) {s : Str} (hs : Json.Ends s) : Json.Ends (w ++ s) := by
  cases w with
  | nil => exact hs
  | cons c w => exact Json.ends_cons (isSpace_of h c (List.mem_cons_self ..)).2 _

theorem jsonVals_map (l : List Data) : jsonVals l = l.map jsonVal := by
  induction l with
  | nil => rfl
  | cons d l ih => rw [jsonVals, ih, List.map_cons]

theorem jsonEntries_map (d : List (Str × Data)) : jsonEntries d = d.map fun p => (p.1, jsonVal p.2) := by
  induction d with
  | nil => rfl
  | cons p d ih => obtain ⟨k, v⟩ := p; rw [jsonEntries, ih, List.map_cons]

/-- What reading a part of a text gives. -/
def Understood (s : Str) : Part → Prop
  | .value d => (∃ c r, s = c :: r ∧ Json.start c = true) ∧ ∀ count levels, Within count levels d → ∀ rest,
      Json.Ends rest ∨ (∃ l, d = .list l) → Json.dec levels (s ++ rest) = some (jsonVal d, rest)
  | .elements l => l.length ≤ s.length ∧ (∃ w c r, s = w ++ c :: r ∧ Space w ∧ Json.start c = true) ∧ ∀ count levels, WithinL count levels l →
      ∀ n, l.length ≤ n → ∀ rest, Json.listOf (Json.dec levels) 0x5d n (s ++ 0x5d :: rest) = some (jsonVals l, rest)
  | .members d => d.length ≤ s.length ∧ (∃ w r, s = w ++ 0x22 :: r ∧ Space w) ∧ ∀ count levels, WithinD count levels d →
      ∀ n, d.length ≤ n → ∀ rest, Json.listOf (Json.readPair (Json.dec levels)) 0x7d n (s ++ 0x7d :: rest) = some (jsonEntries d, rest)

theorem understood_number (s : Str) (f : GoFloat) (d : Data) (hd : jsonVal d = .f64 f) (hl : ∀ l, d ≠ .list l) (h1 : Json.isNumber s = true)
    (h2 : Json.number s = some f) : Understood s (.value d) := by
  refine ⟨(Json.reads_number 0 s f h1 h2).1, fun count levels _ rest hr => ?_⟩
  rw [hd]
  exact (Json.reads_number levels s f h1 h2).2 rest (hr.resolve_right fun ⟨l, h⟩ => hl l h)

theorem skip_cons {c : UInt8} (h : Json.isSpace c = false) (s : Str) : Json.skip (c :: s) = c :: s := by
  simp [Json.skip, h]

/-- An entry of a map, with white space. -/
theorem readPair_read (levels : Nat) {k kb b w1 w2 w3 : Str} {v : Val} (h1 : Space w1) (hk : Literal k kb) (h2 : Space w2) (h3 : Space w3)
    (rest : Str) (hb : Json.dec levels (b ++ rest) = some (v, rest)) :
    Json.readPair (Json.dec levels) (w1 ++ kb ++ w2 ++ 0x3a :: (w3 ++ b ++ rest)) = some ((k, v), rest) := by
  obtain ⟨s, rfl, hs⟩ := literal_read hk
  simp only [List.append_assoc]
  rw [Json.readPair, skip_space h1, List.cons_append, skip_cons (by decide)]
  simp only [hs]
  rw [skip_space h2, skip_cons (by decide)]
  simp only [dec_space levels h3, hb]

theorem json_read {p : Part} {s : Str} (h : Formats.Json p s) : Understood s p := by
  induction h with
  | null => exact ⟨(Json.reads_null 0).1, fun _ levels _ rest hr => (Json.reads_null levels).2 rest (hr.resolve_right (by simp))⟩
  | no => exact ⟨(Json.reads_bool 0 false).1, fun _ levels _ rest hr => (Json.reads_bool levels false).2 rest (hr.resolve_right (by simp))⟩
  | yes => exact ⟨(Json.reads_bool 0 true).1, fun _ levels _ rest hr => (Json.reads_bool levels true).2 rest (hr.resolve_right (by simp))⟩
  | @int v hv =>
    rw [integerOf_eq]
    exact understood_number _ (f64OfInt v) _ rfl (by simp) (Json.integer_text v hv).1 (Json.integer_text v hv).2
  | @float s f hn hs => exact understood_number _ f _ rfl (by simp) ((isNumber_iff s).2 hn) ((number_stands hn).2 hs)
  | @text t b hl =>
    obtain ⟨s, rfl, hs⟩ := literal_read hl
    refine ⟨⟨_, _, rfl, by decide⟩, fun _ levels _ rest _ => ?_⟩
    rw [List.cons_append, Json.dec.eq_def, skip_cons (by decide)]
    simp only [if_true, hs, jsonVal]
  | @empty w hw =>
    refine ⟨⟨_, _, rfl, by decide⟩, fun count levels hin rest _ => ?_⟩
    obtain ⟨levels, rfl⟩ : ∃ k, levels = k + 1 := ⟨levels - 1, by have : 0 < levels := hin.1; omega⟩
    simp only [List.cons_append, List.append_assoc, List.nil_append]
    rw [Json.dec.eq_def, skip_cons (by decide)]
    simp only [show ¬ (0x5b : UInt8) = 0x22 by decide, if_false, if_true, Json.items, skip_space hw]
    rw [skip_cons (by decide)]
    simp only [if_true, jsonVal, jsonVals]
  | @list l b _ ih =>
    obtain ⟨h1, ⟨w, c, r, h2, h3, h4⟩, h5⟩ := ih
    refine ⟨⟨_, _, rfl, by decide⟩, fun count levels hin rest _ => ?_⟩
    obtain ⟨levels, rfl⟩ : ∃ k, levels = k + 1 := ⟨levels - 1, by have : 0 < levels := hin.1; omega⟩
    simp only [List.cons_append, List.append_assoc, List.nil_append]
    have h6 : Json.skip (b ++ 0x5d :: rest) = c :: (r ++ 0x5d :: rest) := by
      rw [h2, List.append_assoc, skip_space h3, List.cons_append, skip_cons (Json.start_of h4).1]
    have h7 := h5 count levels hin.2.2 (b ++ 0x5d :: rest).length (by rw [List.length_append]; omega) rest
    rw [Json.dec.eq_def, skip_cons (by decide)]
    simp only [show ¬ (0x5b : UInt8) = 0x22 by decide, if_false, if_true, Json.items, h6, (Json.start_of h4).2, h7, jsonVal]
  | @one d b w1 w2 hw1 _ hw2 ih =>
    obtain ⟨⟨c, r, h1, h2⟩, h3⟩ := ih
    refine ⟨by rw [h1]; simp; omega, ⟨w1, c, r ++ w2, by rw [h1]; simp, hw1, h2⟩, fun count levels hin n hn rest => ?_⟩
    obtain ⟨n, rfl⟩ : ∃ k, n = k + 1 := ⟨n - 1, by simp at hn; omega⟩
    simp only [List.append_assoc]
    rw [Json.listOf, dec_space levels hw1, h3 count levels hin.1 _ (.inl <| ends_space hw2 (Json.ends_cons (by decide) rest))]
    simp only [skip_space hw2]
    rw [skip_cons (by decide)]
    simp only [if_true, jsonVals]
  | @more d b w1 w2 l bs hw1 _ hw2 _ ih1 ih2 =>
    obtain ⟨⟨c, r, h1, h2⟩, h3⟩ := ih1
    obtain ⟨g1, -, g3⟩ := ih2
    refine ⟨by simp; omega, ⟨w1, c, r ++ w2 ++ 0x2c :: bs, by rw [h1]; simp, hw1, h2⟩, fun count levels hin n hn rest => ?_⟩
    rw [List.length_cons] at hn
    obtain ⟨n, rfl⟩ : ∃ k, n = k + 1 := ⟨n - 1, by omega⟩
    simp only [List.append_assoc, List.cons_append]
    rw [Json.listOf, dec_space levels hw1, h3 count levels hin.1 _ (.inl <| ends_space hw2 (Json.ends_cons (by decide) _))]
    simp only [skip_space hw2]
    rw [skip_cons (by decide)]
    simp only [show ¬ (0x2c : UInt8) = 0x5d by decide, if_false, if_true, g3 count levels hin.2 n (by omega) rest, jsonVals]
  | @nothing w hw =>
    refine ⟨⟨_, _, rfl, by decide⟩, fun count levels hin rest _ => ?_⟩
    obtain ⟨levels, rfl⟩ : ∃ k, levels = k + 1 := ⟨levels - 1, by have : 0 < levels := hin.1; omega⟩
    simp only [List.cons_append, List.append_assoc, List.nil_append]
    rw [Json.dec.eq_def, skip_cons (by decide)]
    simp only [show ¬ (0x7b : UInt8) = 0x22 by decide, show ¬ (0x7b : UInt8) = 0x5b by decide, if_false, if_true, Json.items, skip_space hw]
    rw [skip_cons (by decide)]
    simp only [if_true, jsonVal, jsonEntries, List.foldl_nil]
  | @dict d d' b hp _ ih =>
    obtain ⟨h1, ⟨w, r, h2, h3⟩, h5⟩ := ih
    refine ⟨⟨_, _, rfl, by decide⟩, fun count levels hin rest hrest => ?_⟩
    obtain ⟨levels, rfl⟩ : ∃ k, levels = k + 1 := ⟨levels - 1, by have : 0 < levels := hin.1; omega⟩
    simp only [List.cons_append, List.append_assoc, List.nil_append]
    have h6 : Json.skip (b ++ 0x7d :: rest) = 0x22 :: (r ++ 0x7d :: rest) := by
      rw [h2, List.append_assoc, skip_space h3, List.cons_append, skip_cons (by decide)]
    have hin' : WithinD count levels d' := by
      rw [withinD_iff]
      exact fun p hp' => (withinD_iff ..).1 hin.2.2.2 p (hp.mem_iff.1 hp')
    have h7 := h5 count levels hin' (b ++ 0x7d :: rest).length (by rw [List.length_append]; omega) rest
    rw [Json.dec.eq_def, skip_cons (by decide)]
    simp only [show ¬ (0x7b : UInt8) = 0x22 by decide, show ¬ (0x7b : UInt8) = 0x5b by decide, show ¬ (0x22 : UInt8) = 0x7d by decide, if_false, if_true,
      Json.items, h6, h7, jsonVal, jsonEntries_map]
    rw [foldl_perm (d := d.map fun p => (p.1, jsonVal p.2)) _ (hp.map _)]
    have hord : Ordered d := hin.2.2.1
    clear hrest h1 h2 h3 h5 h6 h7 hin' hin hp
    induction d with
    | nil => rfl
    | cons p d ih =>
      cases hord with
      | cons h1 h2 =>
        simp only [List.map_cons, sortedKeys, Bool.and_eq_true, List.all_eq_true, List.mem_map]
        refine ⟨?_, ih h2⟩
        rintro q ⟨r, hr, rfl⟩
        exact h1 r hr
  | @last k d kb b w1 w2 w3 w4 hw1 hk hw2 hw3 _ hw4 ih =>
    obtain ⟨-, h3⟩ := ih
    obtain ⟨kb', hkb, -⟩ := literal_read hk
    refine ⟨by rw [hkb]; simp; omega, ⟨w1, kb' ++ w2 ++ 0x3a :: (w3 ++ b ++ w4), by rw [hkb]; simp, hw1⟩, fun count levels hin n hn rest => ?_⟩
    obtain ⟨n, rfl⟩ : ∃ k, n = k + 1 := ⟨n - 1, by simp at hn; omega⟩
    have := readPair_read levels hw1 hk hw2 hw3 _ (h3 count levels hin.1 (w4 ++ 0x7d :: rest) (.inl <| ends_space hw4 (Json.ends_cons (by decide) rest)))
    simp only [List.append_assoc, List.cons_append] at this ⊢
    rw [Json.listOf, this]
    simp only [skip_space hw4]
    rw [skip_cons (by decide)]
    simp only [if_true, jsonEntries]
  | @member k d kb b w1 w2 w3 w4 l bs hw1 hk hw2 hw3 _ hw4 _ ih1 ih2 =>
    obtain ⟨-, h3⟩ := ih1
    obtain ⟨g1, -, g3⟩ := ih2
    obtain ⟨kb', hkb, -⟩ := literal_read hk
    refine ⟨by rw [hkb]; simp; omega, ⟨w1, kb' ++ w2 ++ 0x3a :: (w3 ++ b ++ w4 ++ 0x2c :: bs), by rw [hkb]; simp, hw1⟩, fun count levels hin n hn rest => ?_⟩
    rw [List.length_cons] at hn
    obtain ⟨n, rfl⟩ : ∃ k, n = k + 1 := ⟨n - 1, by omega⟩
    have := readPair_read levels hw1 hk hw2 hw3 _ (h3 count levels hin.1 (w4 ++ 0x2c :: (bs ++ 0x7d :: rest)) (.inl <| ends_space hw4 (Json.ends_cons (by decide) _)))
    simp only [List.append_assoc, List.cons_append] at this ⊢
    rw [Json.listOf, this]
    simp only [skip_space hw4]
    rw [skip_cons (by decide)]
    simp only [show ¬ (0x2c : UInt8) = 0x7d by decide, if_false, if_true, g3 count levels hin.2 n (by omega) rest, jsonEntries]

/-! ### Writing text -/

theorem hexDigit_hex (n : Nat) (h : n < 16) : Hex n (hexDigit n) := by
  have : ∀ n : Fin 16, if n.val < 10 then hexDigit n.val = UInt8.ofNat (48 + n.val) else hexDigit n.val = UInt8.ofNat (87 + n.val) := by decide
  have := this ⟨n, h⟩
  by_cases h10 : n < 10
  · rw [if_pos h10] at this; exact .inl ⟨h10, this⟩
  · rw [if_neg h10] at this; exact .inr ⟨by omega, h, .inl this⟩

/-- The three ways in which an ASCII character is written. -/
def asciiCase (n : Nat) : Bool :=
  let e := Json.escByte (UInt8.ofNat n)
  (0x20 ≤ n && n != 0x22 && n != 0x5c && e == [UInt8.ofNat n]) || shorthands.any (fun p => p.1.val.toNat == n && e == [0x5c, p.2]) ||
    e == [0x5c, 0x75, 0x30, 0x30, hexDigit (n / 16), hexDigit (n % 16)]

theorem asciiCase_all : ∀ n : Fin 128, asciiCase n.val = true := by decide +kernel

theorem escape_ascii (c : Char) (h : c.val.toNat < 0x80) {cs : List Char} {s : Str} (hs : Chars cs s) :
    Chars (c :: cs) (Json.escByte (UInt8.ofNat c.val.toNat) ++ s) := by
  have hc : String.utf8EncodeChar c = [UInt8.ofNat c.val.toNat] := by
    rcases char_cases c with ⟨-, g⟩ | ⟨x, y, g, g2, -⟩ | ⟨x, y, z, g, g2, -⟩ | ⟨x, y, z, w, g, g2, -⟩
    · exact g
    all_goals
      rw [← utf8_char, Json.utf8, if_pos h] at g
      cases g
  have := asciiCase_all ⟨c.val.toNat, h⟩
  simp only [asciiCase, Bool.or_eq_true, Bool.and_eq_true, decide_eq_true_eq, beq_iff_eq, bne_iff_ne, List.any_eq_true] at this
  rcases this with (⟨⟨⟨h1, h2⟩, h3⟩, h4⟩ | ⟨p, hp, h1, h2⟩) | h1
  · rw [h4, ← hc]
    refine .plain h1 ?_ ?_ hs
    · rintro rfl; exact h2 rfl
    · rintro rfl; exact h3 rfl
  · have : p.1 = c := Char.ext (UInt32.toNat_inj.1 h1)
    obtain ⟨c', e⟩ := p
    subst this
    rw [h2]
    exact .short hp hs
  · rw [h1]
    refine .hex (h := [0x30, 0x30, hexDigit (c.val.toNat / 16), hexDigit (c.val.toNat % 16)]) ?_ hs
    exact ⟨0, 0, c.val.toNat / 16, c.val.toNat % 16, _, _, _, _, rfl, by omega, .inl ⟨by decide, rfl⟩, .inl ⟨by decide, rfl⟩,
      hexDigit_hex _ (by omega), hexDigit_hex _ (by omega)⟩

theorem separator_hex (n : Nat) (h : n / 2 = 0x1014) (z : UInt8) (hn : z.toNat % 64 = n % 64) :
    Hex4 n [0x32, 0x30, 0x32, hexDigit (z.toNat % 16)] := by
  refine ⟨2, 0, 2, z.toNat % 16, _, _, _, _, rfl, ?_, .inl ⟨by decide, rfl⟩, .inl ⟨by decide, rfl⟩, .inl ⟨by decide, rfl⟩, hexDigit_hex _ (by omega)⟩
  omega

/-- A character is written in one of the ways JSON has. -/
theorem escape_char (c : Char) (t : Str) : ∃ e, Json.escape (String.utf8EncodeChar c ++ t) = e ++ Json.escape t ∧
    ∀ cs s, Chars cs s → Chars (c :: cs) (e ++ s) := by
  have high : ¬ c.val.toNat < 0x80 → ∀ cs s, Chars cs s → Chars (c :: cs) (String.utf8EncodeChar c ++ s) := fun h cs s hs =>
    .plain (by omega) (by rintro rfl; exact h (by decide)) (by rintro rfl; exact h (by decide)) hs
  have not_low : ∀ x l, String.utf8EncodeChar c = x :: l → ¬ x.toNat < 0x80 → ¬ c.val.toNat < 0x80 := by
    intro x l h hx hlow
    rw [← utf8_char, Json.utf8, if_pos hlow] at h
    injection h with h _
    subst h
    rw [toNat_of _ (by omega)] at hx
    exact hx hlow
  rcases char_cases c with ⟨h1, h2⟩ | ⟨x, y, h1, h2, h3⟩ | ⟨x, y, z, h1, h2, h3, h4, h5, h6⟩ | ⟨x, y, z, w, h1, h2, h3, h4, h5⟩
  · refine ⟨Json.escByte (UInt8.ofNat c.val.toNat), ?_, fun cs s hs => escape_ascii c h1 hs⟩
    rw [h2, List.cons_append, List.nil_append, Json.escape.eq_def]
    simp only [toNat_of c.val.toNat (by omega), h1, if_true]
  · refine ⟨String.utf8EncodeChar c, ?_, high (not_low _ _ h1 h2)⟩
    rw [h1]
    simp only [List.cons_append, List.nil_append]
    rw [Json.escape.eq_def]
    simp only [h2, h3, if_false, if_true]
  · by_cases hs : c.val.toNat / 2 = 0x1014
    · obtain ⟨rfl, rfl, hz⟩ := h5.1 hs
      refine ⟨[0x5c, 0x75, 0x32, 0x30, 0x32, hexDigit (z.toNat % 16)], ?_, fun cs s hcs => .hex (separator_hex _ hs z h6) hcs⟩
      rw [h1]
      simp only [List.cons_append, List.nil_append]
      rw [Json.escape.eq_def]
      simp only [h2, h3, h4, if_false, if_true, Bool.false_eq_true, Json.escThree, hz, and_self, List.cons_append, List.nil_append]
    · refine ⟨String.utf8EncodeChar c, ?_, high (not_low _ _ h1 h2)⟩
      rw [h1]
      simp only [List.cons_append, List.nil_append]
      rw [Json.escape.eq_def]
      have : ¬ (x = 0xe2 ∧ y = 0x80 ∧ (z = 0xa8 ∨ z = 0xa9)) := fun h => hs (h5.2 h)
      simp only [h2, h3, h4, if_false, if_true, Bool.false_eq_true, Json.escThree, this, List.cons_append, List.nil_append]
  · refine ⟨String.utf8EncodeChar c, ?_, high (not_low _ _ h1 h2)⟩
    rw [h1]
    simp only [List.cons_append, List.nil_append]
    rw [Json.escape.eq_def]
    simp only [h2, h3, h4, h5, if_false, if_true, Bool.false_eq_true]

theorem escape_chars (cs : List Char) : Chars cs (Json.escape (utf8Of cs)) := by
  induction cs with
  | nil => exact .done
  | cons c cs ih =>
    rw [utf8Of, List.flatMap_cons, ← utf8Of]
    obtain ⟨e, h1, h2⟩ := escape_char c (utf8Of cs)
    rw [h1]
    exact h2 cs _ ih

theorem quote_literal (s : Str) (h : validUtf8 s = true) : Literal s (Json.quote s) := by
  obtain ⟨cs, rfl⟩ := (valid_iff s).1 h
  exact ⟨cs, _, rfl, escape_chars cs, rfl⟩

theorem plain_chars (s : Str) (h : s.all Json.plain = true) : ∃ cs, s = utf8Of cs ∧ Chars cs s := by
  induction s with
  | nil => exact ⟨[], rfl, .done⟩
  | cons a s ih =>
    rw [List.all_cons, Bool.and_eq_true] at h
    obtain ⟨cs, h1, h2⟩ := ih h.2
    have ha := h.1
    simp only [Json.plain, decide_eq_true_eq] at ha
    obtain ⟨g1, g2, g3, g4⟩ := ha
    obtain ⟨c, hc⟩ := char_of a.toNat (by omega)
    have he : String.utf8EncodeChar c = [a] := by rw [← utf8_char, hc, Json.utf8, if_pos g4, UInt8.ofNat_toNat]
    refine ⟨c :: cs, by rw [utf8Of, List.flatMap_cons, ← utf8Of, he, ← h1]; rfl, ?_⟩
    have := Chars.plain (c := c) ?_ ?_ ?_ h2
    · rw [he] at this; exact this
    · rw [hc]
      rw [UInt8.lt_iff_toNat_lt] at g3
      have : (0x20 : UInt8).toNat = 0x20 := rfl
      omega
    · rintro rfl
      exact g1 (UInt8.toNat_inj.1 hc.symm)
    · rintro rfl
      exact g2 (UInt8.toNat_inj.1 hc.symm)

/-! ### base64 -/

theorem alphabet_all : ∀ n : Fin 64, alphabet.getD n.val 0 = b64Char n.val := by decide +kernel

theorem alphabet_char (n : Nat) (h : n < 64) : alphabet.getD n 0 = b64Char n := alphabet_all ⟨n, h⟩

/-- Bits as numbers. -/
theorem bits_of (c : UInt8) : ∃ b7 b6 b5 b4 b3 b2 b1 b0 : Bool, bitsOf c = [b7, b6, b5, b4, b3, b2, b1, b0] ∧
    c.toNat = 128 * b7.toNat + 64 * b6.toNat + 32 * b5.toNat + 16 * b4.toNat + 8 * b3.toNat + 4 * b2.toNat + 2 * b1.toNat + b0.toNat := by
  refine ⟨_, _, _, _, _, _, _, _, rfl, ?_⟩
  have : ∀ n : Fin 256, n.val = 128 * (n.val.testBit 7).toNat + 64 * (n.val.testBit 6).toNat + 32 * (n.val.testBit 5).toNat +
      16 * (n.val.testBit 4).toNat + 8 * (n.val.testBit 3).toNat + 4 * (n.val.testBit 2).toNat + 2 * (n.val.testBit 1).toNat +
      (n.val.testBit 0).toNat := by decide +kernel
  exact this ⟨c.toNat, c.toNat_lt⟩

theorem bit_le (b : Bool) : b.toNat ≤ 1 := by cases b <;> decide

theorem sextet (a b c d e f : Bool) (n : Nat) (h : n = 32 * a.toNat + 16 * b.toNat + 8 * c.toNat + 4 * d.toNat + 2 * e.toNat + f.toNat) :
    alphabet.getD (ofBits [a, b, c, d, e, f]) 0 = b64Char n := by
  have h1 : ofBits [a, b, c, d, e, f] = n := by
    simp only [ofBits, List.foldl_cons, List.foldl_nil]
    omega
  rw [h1]
  apply alphabet_char
  have := bit_le a; have := bit_le b; have := bit_le c; have := bit_le d; have := bit_le e; have := bit_le f
  omega

theorem sextets_three (a b c : UInt8) (rest : List Bool) : sextets (bitsOf a ++ (bitsOf b ++ (bitsOf c ++ rest))) =
    b64Char (a.toNat / 4) :: b64Char (a.toNat % 4 * 16 + b.toNat / 16) :: b64Char (b.toNat % 16 * 4 + c.toNat / 64) :: b64Char (c.toNat % 64) ::
      sextets rest := by
  obtain ⟨a7, a6, a5, a4, a3, a2, a1, a0, ha, ha'⟩ := bits_of a
  obtain ⟨b7, b6, b5, b4, b3, b2, b1, b0, hb, hb'⟩ := bits_of b
  obtain ⟨c7, c6, c5, c4, c3, c2, c1, c0, hc, hc'⟩ := bits_of c
  have := bit_le a0; have := bit_le a1; have := bit_le a2; have := bit_le a3; have := bit_le a4; have := bit_le a5; have := bit_le a6; have := bit_le a7
  have := bit_le b0; have := bit_le b1; have := bit_le b2; have := bit_le b3; have := bit_le b4; have := bit_le b5; have := bit_le b6; have := bit_le b7
  have := bit_le c0; have := bit_le c1; have := bit_le c2; have := bit_le c3; have := bit_le c4; have := bit_le c5; have := bit_le c6; have := bit_le c7
  rw [ha, hb, hc]
  simp only [List.cons_append, List.nil_append, sextets]
  rw [sextet _ _ _ _ _ _ (a.toNat / 4) (by omega), sextet _ _ _ _ _ _ (a.toNat % 4 * 16 + b.toNat / 16) (by omega),
    sextet _ _ _ _ _ _ (b.toNat % 16 * 4 + c.toNat / 64) (by omega), sextet _ _ _ _ _ _ (c.toNat % 64) (by omega)]

theorem base64_eq (b : Str) : base64 b = b64Encode b := by
  match b with
  | [] => rfl
  | [a] =>
    obtain ⟨a7, a6, a5, a4, a3, a2, a1, a0, ha, ha'⟩ := bits_of a
    have := bit_le a0; have := bit_le a1; have := bit_le a2; have := bit_le a3; have := bit_le a4; have := bit_le a5; have := bit_le a6; have := bit_le a7
    simp only [base64, List.flatMap_cons, List.flatMap_nil, ha, List.append_nil, sextets, b64Encode]
    rw [sextet _ _ _ _ _ _ (a.toNat / 4) (by omega), sextet _ _ _ _ _ _ (a.toNat % 4 * 16) (by simp only [Bool.toNat_false]; omega)]
    rfl
  | [a, b] =>
    obtain ⟨a7, a6, a5, a4, a3, a2, a1, a0, ha, ha'⟩ := bits_of a
    obtain ⟨b7, b6, b5, b4, b3, b2, b1, b0, hb, hb'⟩ := bits_of b
    have := bit_le a0; have := bit_le a1; have := bit_le a2; have := bit_le a3; have := bit_le a4; have := bit_le a5; have := bit_le a6; have := bit_le a7
    have := bit_le b0; have := bit_le b1; have := bit_le b2; have := bit_le b3; have := bit_le b4; have := bit_le b5; have := bit_le b6; have := bit_le b7
    simp only [base64, List.flatMap_cons, List.flatMap_nil, ha, hb, List.append_nil, List.cons_append, List.nil_append, sextets, b64Encode]
    rw [sextet _ _ _ _ _ _ (a.toNat / 4) (by omega), sextet _ _ _ _ _ _ (a.toNat % 4 * 16 + b.toNat / 16) (by omega),
      sextet _ _ _ _ _ _ (b.toNat % 16 * 4) (by simp only [Bool.toNat_false]; omega)]
    rfl
  | a :: b :: c :: rest =>
    have ih := base64_eq rest
    rw [b64Encode, ← ih]
    simp only [base64, List.flatMap_cons, sextets_three, List.length_cons, List.cons_append]
    rw [show ∀ n, (n + 1 + 1 + 1 + 1) % 4 = n % 4 from fun n => by omega]
termination_by b.length

/-! ### Writing -/

theorem asJsonL_map (l : List Data) : asJsonL l = l.map asJson := by
  induction l with
  | nil => rfl
  | cons d l ih => rw [asJsonL, ih, List.map_cons]

theorem asJsonD_map (d : List (Str × Data)) : asJsonD d = d.map fun p => (p.1, asJson p.2) := by
  induction d with
  | nil => rfl
  | cons p d ih => obtain ⟨k, v⟩ := p; rw [asJsonD, ih, List.map_cons]

theorem space_nil : Space [] := by intro c hc; cases hc

section

/-- The value is written, as JSON with its content. -/
def JsonGood (v : Val) : Prop := ∃ b, Json.enc v = some b ∧ Formats.Json (.value (jsonContent v)) b

theorem jsonContent_arr (l : List Val) : jsonContent (.arr l) = .list (l.map jsonContent) := by
  have : ∀ f l, wireL f l = l.map (wire f) := by
    intro f l
    induction l with
    | nil => rfl
    | cons v l ih => rw [wireL, ih, List.map_cons]
  rw [jsonContent, wire, this, content, contents_map, asJson, asJsonL_map, List.map_map, List.map_map]
  rfl

theorem jsonContent_map (d : Dict) : jsonContent (.map d) = .dict (d.map fun p => (p.1, jsonContent p.2)) := by
  have : ∀ f d, wireM f d = d.map fun p => (p.1, wire f p.2) := by
    intro f d
    induction d with
    | nil => rfl
    | cons p d ih => obtain ⟨k, v⟩ := p; rw [wireM, ih, List.map_cons]
  rw [jsonContent, wire, this, content, entries_map, asJson, asJsonD_map, List.map_map, List.map_map]
  rfl

theorem json_elements (ts : List (Str × Data)) (hne : ts ≠ []) (h : ∀ t ∈ ts, Formats.Json (.value t.2) t.1) :
    Formats.Json (.elements (ts.map Prod.snd)) (Json.commas (ts.map Prod.fst)) := by
  induction ts with
  | nil => exact absurd rfl hne
  | cons t ts ih =>
    have ht := h t (List.mem_cons_self ..)
    cases ts with
    | nil =>
      have := Formats.Json.one space_nil ht space_nil
      rwa [List.nil_append, List.append_nil] at this
    | cons u us =>
      have := Formats.Json.more space_nil ht space_nil (ih (by simp) fun t ht => h t (List.mem_cons_of_mem _ ht))
      rw [List.nil_append, List.append_nil] at this
      simp only [List.map_cons] at this ⊢
      rw [Json.commas]
      · exact this
      · simp

theorem json_list (ts : List (Str × Data)) (h : ∀ t ∈ ts, Formats.Json (.value t.2) t.1) :
    Formats.Json (.value (.list (ts.map Prod.snd))) (0x5b :: (Json.commas (ts.map Prod.fst) ++ [0x5d])) := by
  cases ts with
  | nil => exact .empty space_nil
  | cons t ts => exact .list (json_elements _ (by simp) h)

theorem json_members (ts : List (Str × Str × Data)) (hne : ts ≠ [])
    (h : ∀ t ∈ ts, validUtf8 t.1 = true ∧ Formats.Json (.value t.2.2) t.2.1) :
    Formats.Json (.members (ts.map fun t => (t.1, t.2.2))) (Json.commas (ts.map fun t => Json.quote t.1 ++ 0x3a :: t.2.1)) := by
  induction ts with
  | nil => exact absurd rfl hne
  | cons t ts ih =>
    obtain ⟨hk, ht⟩ := h t (List.mem_cons_self ..)
    cases ts with
    | nil =>
      have := Formats.Json.last space_nil (quote_literal t.1 hk) space_nil space_nil ht space_nil
      simpa only [List.nil_append, List.append_nil, List.map_cons, List.map_nil, Json.commas] using this
    | cons u us =>
      have := Formats.Json.member space_nil (quote_literal t.1 hk) space_nil space_nil ht space_nil (ih (by simp) fun t ht => h t (List.mem_cons_of_mem _ ht))
      simp only [List.nil_append, List.append_nil] at this
      simp only [List.map_cons] at this ⊢
      rw [Json.commas]
      · simpa only [List.append_assoc, List.cons_append] using this
      · simp

theorem json_dict (ts : List (Str × Str × Data)) (h : ∀ t ∈ ts, validUtf8 t.1 = true ∧ Formats.Json (.value t.2.2) t.2.1) :
    Formats.Json (.value (.dict (ts.map fun t => (t.1, t.2.2))))
      (0x7b :: (Json.commas (ts.map fun t => Json.quote t.1 ++ 0x3a :: t.2.1) ++ [0x7d])) := by
  cases ts with
  | nil => exact .nothing space_nil
  | cons t ts => exact .dict (.refl _) (json_members _ (by simp) h)

theorem jsonGood_arr (l : List Val) (h : ∀ v ∈ l, JsonGood v) : JsonGood (.arr l) := by
  have key : ∃ ts : List (Str × Data), Json.encL l = some (ts.map Prod.fst) ∧ l.map (fun v => jsonContent v) = ts.map Prod.snd ∧
      ∀ t ∈ ts, Formats.Json (.value t.2) t.1 := by
    induction l with
    | nil => exact ⟨[], rfl, rfl, by simp⟩
    | cons v l ih =>
      obtain ⟨ts, h1, h2, h3⟩ := ih fun q hq => h q (List.mem_cons_of_mem _ hq)
      obtain ⟨b, hb, hd⟩ := h v (List.mem_cons_self ..)
      refine ⟨(b, jsonContent v) :: ts, ?_, ?_, ?_⟩
      · simp only [Json.encL, hb, h1, List.map_cons]
      · simp only [List.map_cons, h2]
      · intro t htm
        rcases List.mem_cons.1 htm with rfl | htm
        · exact hd
        · exact h3 t htm
  obtain ⟨ts, h1, h2, h3⟩ := key
  refine ⟨_, by simp only [Json.enc, h1, Option.map_some]; rfl, ?_⟩
  rw [jsonContent_arr, h2]
  exact json_list ts h3

theorem jsonGood_strs (l : List Str) (h : ∀ s ∈ l, validUtf8 s = true) : JsonGood (.strs l) := by
  refine ⟨_, rfl, ?_⟩
  have := json_list (l.map fun s => (Json.quote s, Data.text s)) (by
    intro t ht
    obtain ⟨s, hs, rfl⟩ := List.mem_map.1 ht
    exact .text (quote_literal s (h s hs)))
  rw [List.map_map, List.map_map] at this
  rw [jsonContent, wire, content, contents_map, asJson, asJsonL_map, List.map_map, List.map_map]
  exact this

theorem jsonGood_map (d : Dict) (h : ∀ p ∈ d, validUtf8 p.1 = true ∧ JsonGood p.2) : JsonGood (.map d) := by
  have key : ∃ ts : List (Str × Str × Data), Json.encM d = some (ts.map fun t => Json.quote t.1 ++ 0x3a :: t.2.1) ∧
      d.map (fun p => (p.1, jsonContent p.2)) = ts.map (fun t => (t.1, t.2.2)) ∧
      ∀ t ∈ ts, validUtf8 t.1 = true ∧ Formats.Json (.value t.2.2) t.2.1 := by
    induction d with
    | nil => exact ⟨[], rfl, rfl, by simp⟩
    | cons p d ih =>
      obtain ⟨ts, h1, h2, h3⟩ := ih fun q hq => h q (List.mem_cons_of_mem _ hq)
      obtain ⟨hk, b, hb, hd⟩ := h p (List.mem_cons_self ..)
      obtain ⟨k, v⟩ := p
      refine ⟨(k, b, jsonContent v) :: ts, ?_, ?_, ?_⟩
      · simp only [Json.encM, hb, h1, List.map_cons]
      · simp only [List.map_cons, h2]
      · intro t htm
        rcases List.mem_cons.1 htm with rfl | htm
        · exact ⟨hk, hd⟩
        · exact h3 t htm
  obtain ⟨ts, h1, h2, h3⟩ := key
  refine ⟨_, by simp only [Json.enc, h1, Option.map_some]; rfl, ?_⟩
  rw [jsonContent_map, h2]
  exact json_dict ts h3

mutual
/-- What fits is written the way JSON wants it. -/
theorem json_write (levels : Nat) (v : Val) (h : Json.fits levels v = true) : JsonGood v := by
  cases v with
  | nil => exact ⟨_, rfl, .null⟩
  | bool b => cases b with
    | false => exact ⟨_, rfl, .no⟩
    | true => exact ⟨_, rfl, .yes⟩
  | arrNil => exact ⟨_, rfl, .null⟩
  | strsNil => exact ⟨_, rfl, .null⟩
  | mapNil => exact ⟨_, rfl, .null⟩
  | other t => simp [Json.fits] at h
  | int k v => exact ⟨_, rfl, by rw [← integerOf_eq]; exact .int (Json.word_small (of_decide_eq_true h))⟩
  | uint k n =>
    refine ⟨_, rfl, ?_⟩
    have := Formats.Json.int (v := (n : Int)) (Json.word_small (of_decide_eq_true h))
    rwa [integerOf, if_neg (by omega), digitsOf_eq, Int.natAbs_natCast] at this
  | f32 f =>
    cases f with
    | fin neg m e =>
      obtain ⟨h1, h2⟩ := Json.float32_text neg m e h
      have hn := (isNumber_iff _).1 h1
      exact ⟨_, rfl, .float hn ((number_stands hn).1 h2)⟩
    | inf neg => simp [Json.fits, Json.floatFits] at h
    | nan => simp [Json.fits, Json.floatFits] at h
  | f64 f =>
    cases f with
    | fin neg m e =>
      obtain ⟨h1, h2⟩ := Json.float64_text neg m e h
      have hn := (isNumber_iff _).1 h1
      exact ⟨_, rfl, .float hn ((number_stands hn).1 h2)⟩
    | inf neg => simp [Json.fits, Json.floatFits] at h
    | nan => simp [Json.fits, Json.floatFits] at h
  | str s => exact ⟨_, rfl, .text (quote_literal s h)⟩
  | named s => exact ⟨_, rfl, .text (quote_literal s h)⟩
  | bytes b =>
    refine ⟨_, rfl, .text ?_⟩
    obtain ⟨cs, h1, h2⟩ := plain_chars _ (Json.b64Encode_plain b)
    rw [base64_eq]
    exact ⟨cs, _, h1, h2, rfl⟩
  | strs l =>
    simp only [Json.fits, Bool.and_eq_true, decide_eq_true_eq, List.all_eq_true] at h
    exact jsonGood_strs l h.2
  | arr l =>
    simp only [Json.fits, Bool.and_eq_true, decide_eq_true_eq] at h
    exact jsonGood_arr l (json_writeL (levels - 1) l h.2)
  | map d =>
    simp only [Json.fits, Bool.and_eq_true, decide_eq_true_eq] at h
    exact jsonGood_map d (json_writeM (levels - 1) d h.2)
termination_by sizeOf v
theorem json_writeL (levels : Nat) (l : List Val) (h : Json.fitsL levels l = true) : ∀ v ∈ l, JsonGood v := by
  cases l with
  | nil => intro v hv; cases hv
  | cons v l =>
    simp only [Json.fitsL, Bool.and_eq_true] at h
    intro w hw
    rcases List.mem_cons.1 hw with hv | hw
    · rw [hv]; exact json_write levels v h.1
    · exact json_writeL levels l h.2 w hw
termination_by sizeOf l
theorem json_writeM (levels : Nat) (d : List (Str × Val)) (h : Json.fitsM levels d = true) :
    ∀ p ∈ d, validUtf8 p.1 = true ∧ JsonGood p.2 := by
  match d, h with
  | [], _ => intro v hv; cases hv
  | (k, v) :: d, h =>
    simp only [Json.fitsM, Bool.and_eq_true] at h
    intro w hw
    rcases List.mem_cons.1 hw with hv | hw
    · rw [hv]; exact ⟨h.1.1, json_write levels v h.1.2⟩
    · exact json_writeM levels d h.2 w hw
termination_by sizeOf d
end

end

end Wamp.Formats
