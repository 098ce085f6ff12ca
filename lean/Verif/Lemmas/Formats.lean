import Verif.Lemmas.MsgPack
import Verif.Spec.Formats
/-!
# UTF-8, byte order and IEEE 754: the serializers' notions are the published ones
-/
namespace Wamp.Formats
open Wamp Wamp.Cbor

theorem valid_char (c : Char) (s : Str) : validUtf8 (String.utf8EncodeChar c ++ s) = validUtf8 s := by
  have hv : c.val.toNat < 55296 ∨ 57343 < c.val.toNat ∧ c.val.toNat < 1114112 := c.valid
  have u : ∀ n, n < 256 → (UInt8.ofNat n).toNat = n := fun n h => UInt8.toNat_ofNat_of_lt' h
  have ue : ∀ n m : Nat, n < 256 → m < 256 → ((UInt8.ofNat n = UInt8.ofNat m) ↔ n = m) := by
    intro n m hn hm
    constructor
    · intro h; have := congrArg UInt8.toNat h; rwa [u n hn, u m hm] at this
    · rintro rfl; rfl
  generalize hn : c.val.toNat = n at hv
  unfold String.utf8EncodeChar
  simp only [hn]
  split
  · rw [List.cons_append, List.nil_append, validUtf8.eq_def]
    simp only [u n (by omega)]
    rw [if_pos (by omega)]
  split
  · simp only [List.cons_append, List.nil_append]
    rw [validUtf8.eq_def]
    simp only [within, u (n / 64 % 32 + 192) (by omega), u (n % 64 + 128) (by omega)]
    rw [if_neg (by omega), if_pos (by simp; omega)]
  split
  · simp only [List.cons_append, List.nil_append]
    rw [validUtf8.eq_def]
    simp only [within, u (n / 4096 % 16 + 224) (by omega), u (n % 64 + 128) (by omega), u (n / 64 % 64 + 128) (by omega),
      show (0xe0 : UInt8) = UInt8.ofNat 0xe0 from rfl, show (0xed : UInt8) = UInt8.ofNat 0xed from rfl,
      ue (n / 4096 % 16 + 224) 0xe0 (by omega) (by omega), ue (n / 4096 % 16 + 224) 0xed (by omega) (by omega)]
    rw [if_neg (by omega), if_neg (by simp <;> omega), if_pos]
    simp only [Bool.and_eq_true, decide_eq_true_eq]
    split <;> split <;> omega
  · simp only [List.cons_append, List.nil_append]
    rw [validUtf8.eq_def]
    simp only [within, u (n / 262144 % 8 + 240) (by omega), u (n / 4096 % 64 + 128) (by omega), u (n % 64 + 128) (by omega), u (n / 64 % 64 + 128) (by omega),
      show (0xf0 : UInt8) = UInt8.ofNat 0xf0 from rfl, show (0xf4 : UInt8) = UInt8.ofNat 0xf4 from rfl,
      ue (n / 262144 % 8 + 240) 0xf0 (by omega) (by omega), ue (n / 262144 % 8 + 240) 0xf4 (by omega) (by omega)]
    rw [if_neg (by omega), if_neg (by simp <;> omega), if_neg (by simp <;> omega), if_pos]
    simp only [Bool.and_eq_true, decide_eq_true_eq]
    split <;> split <;> omega

/-- A character with the given code point. -/
theorem char_of (n : Nat) (h : n < 55296 ∨ 57343 < n ∧ n < 1114112) : ∃ c : Char, c.val.toNat = n :=
  ⟨⟨UInt32.ofNatLT n (by show n < 4294967296; omega), by show Nat.isValidChar _; rw [UInt32.toNat_ofNatLT]; exact h⟩, by
    show (UInt32.ofNatLT n _).toNat = n
    rw [UInt32.toNat_ofNatLT]⟩

theorem byte_eq {a : UInt8} {n : Nat} (h : n = a.toNat) : UInt8.ofNat n = a := by subst h; exact UInt8.ofNat_toNat

/-- `utf8.Valid` accepts exactly UTF-8. -/
theorem valid_iff (s : Str) : validUtf8 s = true ↔ Utf8 s := by
  constructor
  · induction hl : s.length using Nat.strongRecOn generalizing s with
    | ind k ih =>
      intro h
      have step : ∀ (c : Char) (r : Str), r.length < k → validUtf8 r = true → Utf8 (String.utf8EncodeChar c ++ r) := by
        intro c r hr hv
        obtain ⟨cs, e⟩ := ih r.length hr r rfl hv
        exact ⟨c :: cs, by rw [List.flatMap_cons, e]⟩
      subst hl
      match s, h with
      | [], _ => exact ⟨[], rfl⟩
      | a :: r1, h =>
        have ha := a.toNat_lt
        rw [validUtf8.eq_def] at h
        simp only at h
        split at h
        · obtain ⟨c, hc⟩ := char_of a.toNat (by omega)
          have := step c r1 (by simp) h
          unfold String.utf8EncodeChar at this
          simp only [hc] at this
          rw [if_pos (by omega), byte_eq rfl] at this
          exact this
        · match r1, h with
          | [], h => simp at h
          | b :: r2, h =>
            have hb := b.toNat_lt
            simp only at h
            split at h
            · rename_i h2
              simp only [within, Bool.and_eq_true, decide_eq_true_eq] at h2
              obtain ⟨c, hc⟩ := char_of ((a.toNat - 192) * 64 + (b.toNat - 128)) (by omega)
              have := step c r2 (by simp; omega) h
              unfold String.utf8EncodeChar at this
              simp only [hc] at this
              rw [if_neg (by omega), if_pos (by omega), byte_eq (a := a) (by omega), byte_eq (a := b) (by omega)] at this
              exact this
            · match r2, h with
              | [], h => simp at h
              | c :: r3, h =>
                have hc' := c.toNat_lt
                simp only at h
                by_cases h3 : ((within a 0xe0 0xef && within b (if a = 0xe0 then 0xa0 else 0x80) (if a = 0xed then 0x9f else 0xbf)) &&
                    within c 0x80 0xbf) = true
                · rw [if_pos h3] at h
                  simp only [within, Bool.and_eq_true, decide_eq_true_eq] at h3
                  have hx : ((a = 0xe0) ↔ a.toNat = 0xe0) := ⟨fun e => by rw [e]; rfl, fun e => UInt8.toNat_inj.1 e⟩
                  have hy : ((a = 0xed) ↔ a.toNat = 0xed) := ⟨fun e => by rw [e]; rfl, fun e => UInt8.toNat_inj.1 e⟩
                  simp only [hx, hy] at h3
                  obtain ⟨ch, hc⟩ := char_of ((a.toNat - 224) * 4096 + (b.toNat - 128) * 64 + (c.toNat - 128)) (by
                    obtain ⟨⟨_, h4⟩, _⟩ := h3
                    split at h4 <;> split at h4 <;> omega)
                  have h5 : 2047 < ch.val.toNat := by
                    obtain ⟨⟨_, h4⟩, _⟩ := h3
                    split at h4 <;> split at h4 <;> omega
                  have h6 : 128 ≤ b.toNat ∧ b.toNat ≤ 191 := by
                    obtain ⟨⟨_, h4⟩, _⟩ := h3
                    split at h4 <;> split at h4 <;> omega
                  have := step ch r3 (by simp; omega) h
                  unfold String.utf8EncodeChar at this
                  simp only [hc] at this h5
                  rw [if_neg (by omega), if_neg (by omega), if_pos (by omega), byte_eq (a := a) (by omega), byte_eq (a := b) (by omega),
                    byte_eq (a := c) (by omega)] at this
                  exact this
                · rw [if_neg h3] at h
                  match r3, h with
                  | [], h => simp at h
                  | d :: r4, h =>
                    have hd' := d.toNat_lt
                    simp only at h
                    by_cases h3 : ((within a 0xf0 0xf4 && within b (if a = 0xf0 then 0x90 else 0x80) (if a = 0xf4 then 0x8f else 0xbf)) &&
                        (within c 0x80 0xbf && within d 0x80 0xbf)) = true
                    · rw [if_pos h3] at h
                      simp only [within, Bool.and_eq_true, decide_eq_true_eq] at h3
                      have hx : ((a = 0xf0) ↔ a.toNat = 0xf0) := ⟨fun e => by rw [e]; rfl, fun e => UInt8.toNat_inj.1 e⟩
                      have hy : ((a = 0xf4) ↔ a.toNat = 0xf4) := ⟨fun e => by rw [e]; rfl, fun e => UInt8.toNat_inj.1 e⟩
                      simp only [hx, hy] at h3
                      have h6 : 128 ≤ b.toNat ∧ b.toNat ≤ 191 := by
                        obtain ⟨⟨_, h4⟩, _⟩ := h3
                        split at h4 <;> split at h4 <;> omega
                      obtain ⟨ch, hc⟩ := char_of ((a.toNat - 240) * 262144 + (b.toNat - 128) * 4096 + (c.toNat - 128) * 64 + (d.toNat - 128)) (by
                        obtain ⟨⟨_, h4⟩, _⟩ := h3
                        split at h4 <;> split at h4 <;> omega)
                      have h5 : 65535 < ch.val.toNat := by
                        obtain ⟨⟨_, h4⟩, _⟩ := h3
                        split at h4 <;> split at h4 <;> omega
                      have := step ch r4 (by simp; omega) h
                      unfold String.utf8EncodeChar at this
                      simp only [hc] at this h5
                      rw [if_neg (by omega), if_neg (by omega), if_neg (by omega), byte_eq (a := a) (by omega), byte_eq (a := b) (by omega),
                        byte_eq (a := c) (by omega), byte_eq (a := d) (by omega)] at this
                      exact this
                    · rw [if_neg h3] at h; cases h
  · rintro ⟨cs, rfl⟩
    induction cs with
    | nil => rfl
    | cons c cs ih => rw [List.flatMap_cons, valid_char, ih]

/-! ### Numbers -/

theorem bigEndian_ofBE (s : Str) : bigEndian s = ofBE s := by
  induction s with
  | nil => rfl
  | cons b s ih =>
    have : ofBE (b :: s) = (0 * 256 + b.toNat) * 256 ^ s.length + ofBE s := by rw [← foldl_be]; rfl
    rw [bigEndian, ih, this, Nat.zero_mul, Nat.zero_add]

theorem bigEndian_lt (s : Str) : bigEndian s < 256 ^ s.length := by
  induction s with
  | nil => decide
  | cons b s ih =>
    rw [bigEndian, List.length_cons, Nat.pow_succ]
    have := b.toNat_lt
    have h : b.toNat * 256 ^ s.length ≤ 255 * 256 ^ s.length := Nat.mul_le_mul_right _ (by omega)
    omega

theorem bigEndian_be (k n : Nat) (h : n < 256 ^ k) : bigEndian (be k n) = n := by rw [bigEndian_ofBE, ofBE_be k n h]

/-- The bit patterns of a format. -/
def Format.bits (F : Format) : Nat := 2 ^ (F.exp + F.frac + 1)

theorem value_floatOf (F : Format) (hb : F.bias = bias F.exp) (n : Nat) (h : n < F.bits) : F.value n = floatOf F.exp F.frac n := by
  have : n / 2 ^ (F.exp + F.frac) % 2 = n / 2 ^ (F.exp + F.frac) := by
    apply Nat.mod_eq_of_lt
    rw [Nat.div_lt_iff_lt_mul (Nat.pow_pos (by decide))]
    rw [Format.bits, Nat.pow_succ] at h
    omega
  simp only [Format.value, floatOf, this, hb]

theorem isFloat_floatOf (eb mb n : Nat) : isFloat eb mb (floatOf eb mb n) = true := by
  have hP : 0 < 2 ^ mb := Nat.pow_pos (by decide)
  have hQ : 0 < 2 ^ eb := Nat.pow_pos (by decide)
  have h1 := Nat.mod_lt n hP
  have h2 := Nat.mod_lt (n / 2 ^ mb) hQ
  simp only [floatOf]
  split
  · split <;> rfl
  split
  · simp [isFloat, h1]
  · simp only [isFloat]
    rw [if_neg (by omega)]
    have hq : ((2 ^ eb : Nat) : Int) = 2 ^ eb := by simp
    simp only [Bool.and_eq_true, decide_eq_true_eq]
    have hc : ((n / 2 ^ mb % 2 ^ eb : Nat) : Int) ≤ 2 ^ eb - 2 := by
      rename_i h3 _
      have : n / 2 ^ mb % 2 ^ eb ≤ 2 ^ eb - 2 := by omega
      omega
    refine ⟨⟨by rw [Nat.pow_succ, Nat.mul_two]; exact Nat.add_lt_add_left h1 _, by omega⟩, by omega⟩

/-- The values of binary32 are the ones the serializers can write as such. -/
theorem isSingle_iff (f : GoFloat) : isFloat 8 23 f = true ↔ ∃ n < 2 ^ 32, single.value n = f := by
  constructor
  · intro h
    obtain ⟨h1, h2⟩ := MsgPack.floatOf_bits32 f h
    exact ⟨_, h2, by rw [value_floatOf single rfl _ h2]; exact h1⟩
  · rintro ⟨n, hn, rfl⟩
    rw [value_floatOf single rfl n hn]
    exact isFloat_floatOf ..

/-- The values of binary64 are the ones the serializers can write as such. -/
theorem isDouble_iff (f : GoFloat) : isFloat 11 52 f = true ↔ ∃ n < 2 ^ 64, double.value n = f := by
  constructor
  · intro h
    obtain ⟨h1, h2⟩ := MsgPack.floatOf_bits64 f h
    exact ⟨_, h2, by rw [value_floatOf double rfl _ h2]; exact h1⟩
  · rintro ⟨n, hn, rfl⟩
    rw [value_floatOf double rfl n hn]
    exact isFloat_floatOf ..

/-! ### Values as decoders make them -/

mutual
/-- No typed nils, no `[]string` and no named types inside. -/
def fresh : Val → Bool
  | .named _ => false
  | .arr l => freshL l
  | .arrNil => false
  | .strs _ => false
  | .strsNil => false
  | .map d => freshM d
  | .mapNil => false
  | .other _ => false
  | _ => true
/-- All elements. -/
def freshL : List Val → Bool
  | [] => true
  | v :: rest => fresh v && freshL rest
/-- All values. -/
def freshM : List (Str × Val) → Bool
  | [] => true
  | (_, v) :: rest => fresh v && freshM rest
end

theorem freshM_iff (d : List (Str × Val)) : freshM d = true ↔ ∀ p ∈ d, fresh p.2 = true := by
  induction d with
  | nil => simp [freshM]
  | cons p d ih => simp [freshM, ih]

theorem fresh_text {v : Val} {s : Str} (h : fresh v = true) (hc : content v = .text s) : v = .str s := by
  cases v <;> simp_all [content, fresh]

theorem fresh_list {v : Val} {l : List Data} (h : fresh v = true) (hc : content v = .list l) : ∃ a, v = .arr a ∧ contents a = l ∧ freshL a = true := by
  cases v <;> simp_all [content, fresh]

theorem fresh_dict {v : Val} {d : List (Str × Data)} (h : fresh v = true) (hc : content v = .dict d) :
    ∃ m, v = .map m ∧ entries m = d ∧ freshM m = true := by
  cases v <;> simp_all [content, fresh]

theorem fresh_null {v : Val} (h : fresh v = true) (hc : content v = .null) : v = .nil := by
  cases v <;> simp_all [content, fresh]

end Wamp.Formats
