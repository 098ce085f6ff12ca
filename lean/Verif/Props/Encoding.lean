import Verif.Model.Encoding
/-!
# C22: hex and base64
-/
namespace Wamp

/-- The byte is one of `0-9 a-f A-F`. -/
def IsHexDigit (c : UInt8) : Prop :=
  c ∈ str "0123456789abcdefABCDEF"

theorem hexDigit_table : ∀ n : Fin 16, hexVal (hexDigit n.val) = some n.val := by decide +kernel

theorem hexVal_digit (n : Nat) (h : n < 16) : hexVal (hexDigit n) = some n := hexDigit_table ⟨n, h⟩

theorem hexVal_table : ∀ n : Fin 256,
    (hexVal (UInt8.ofNat n.val)).isSome = true ↔ UInt8.ofNat n.val ∈ str "0123456789abcdefABCDEF" := by
  decide +kernel

theorem hexVal_isSome (c : UInt8) : (hexVal c).isSome = true ↔ IsHexDigit c := by
  have h := hexVal_table ⟨c.toNat, UInt8.toNat_lt c⟩
  simpa [IsHexDigit] using h

theorem ofNat_eq (n : Nat) (a : UInt8) (h : n = a.toNat) : UInt8.ofNat n = a := by
  subst h; simp

theorem hexDecode_encode (b : Str) : hexDecode (hexEncode b) = some b := by
  induction b with
  | nil => rfl
  | cons a rest ih =>
    have ha := UInt8.toNat_lt a
    simp only [hexEncode, hexDecode, hexVal_digit _ (show a.toNat / 16 < 16 by omega),
      hexVal_digit _ (Nat.mod_lt a.toNat (show 16 > 0 by decide)), ih]
    rw [ofNat_eq _ a (by omega)]

theorem hexDecode_isSome : ∀ s : Str,
    (hexDecode s).isSome = true ↔ s.length % 2 = 0 ∧ ∀ c ∈ s, IsHexDigit c
  | [] => by simp [hexDecode]
  | [_] => by simp [hexDecode]
  | a :: b :: rest => by
    have ih := hexDecode_isSome rest
    have h1 := hexVal_isSome a
    have h2 := hexVal_isSome b
    have e : (hexDecode (a :: b :: rest)).isSome = true ↔
        (hexVal a).isSome = true ∧ (hexVal b).isSome = true ∧ (hexDecode rest).isSome = true := by
      rw [hexDecode]
      cases hexVal a <;> cases hexVal b <;> cases hexDecode rest <;> simp
    rw [e, h1, h2, ih]
    have : (a :: b :: rest).length % 2 = rest.length % 2 := by simp only [List.length_cons]; omega
    rw [this]
    simp only [List.mem_cons]
    constructor
    · rintro ⟨ha, hb, hl, hr⟩
      refine ⟨hl, ?_⟩
      rintro c (rfl | rfl | hc)
      · exact ha
      · exact hb
      · exact hr c hc
    · rintro ⟨hl, hr⟩
      exact ⟨hr a (Or.inl rfl), hr b (Or.inr (Or.inl rfl)), hl, fun c hc => hr c (Or.inr (Or.inr hc))⟩

theorem b64Char_table : ∀ n : Fin 64, b64Val (b64Char n.val) = some n.val ∧
    b64Char n.val ≠ 10 ∧ b64Char n.val ≠ 13 := by decide +kernel

theorem b64Char_ok (n : Nat) (h : n < 64) :
    b64Val (b64Char n) = some n ∧ b64Char n ≠ 10 ∧ b64Char n ≠ 13 := b64Char_table ⟨n, h⟩

theorem b64Val_pad : b64Val b64Pad = none := by decide

theorem b64Groups_encode (b : Str) : b64Groups (b64Encode b) = some b := by
  induction b using b64Encode.induct with
  | case1 => rfl
  | case2 a =>
    have ha := UInt8.toNat_lt a
    simp only [b64Encode, b64Groups, (b64Char_ok (a.toNat / 4) (by omega)).1,
      (b64Char_ok (a.toNat % 4 * 16) (by omega)).1, b64Val_pad]
    simp only [and_self, if_true, Option.some.injEq, List.cons.injEq, and_true]
    exact ofNat_eq _ a (by omega)
  | case3 a b =>
    have ha := UInt8.toNat_lt a
    have hb := UInt8.toNat_lt b
    simp only [b64Encode, b64Groups, (b64Char_ok (a.toNat / 4) (by omega)).1,
      (b64Char_ok (a.toNat % 4 * 16 + b.toNat / 16) (by omega)).1,
      (b64Char_ok (b.toNat % 16 * 4) (by omega)).1, b64Val_pad]
    simp only [and_self, if_true, Option.some.injEq, List.cons.injEq, and_true]
    exact ⟨ofNat_eq _ a (by omega), ofNat_eq _ b (by omega)⟩
  | case4 a b c rest ih =>
    have ha := UInt8.toNat_lt a
    have hb := UInt8.toNat_lt b
    have hc := UInt8.toNat_lt c
    simp only [b64Encode, b64Groups, (b64Char_ok (a.toNat / 4) (by omega)).1,
      (b64Char_ok (a.toNat % 4 * 16 + b.toNat / 16) (by omega)).1,
      (b64Char_ok (b.toNat % 16 * 4 + c.toNat / 64) (by omega)).1,
      (b64Char_ok (c.toNat % 64) (by omega)).1, ih, Option.map_some, Option.some.injEq, List.cons.injEq,
      and_true]
    exact ⟨ofNat_eq _ a (by omega), ofNat_eq _ b (by omega), ofNat_eq _ c (by omega)⟩

theorem b64Encode_no_newline (b : Str) : ∀ c ∈ b64Encode b, c ≠ 10 ∧ c ≠ 13 := by
  have pad : b64Pad ≠ 10 ∧ b64Pad ≠ 13 := by decide
  induction b using b64Encode.induct with
  | case1 => simp [b64Encode]
  | case2 a =>
    have ha := UInt8.toNat_lt a
    intro c hc
    simp only [b64Encode, List.mem_cons, List.not_mem_nil, or_false] at hc
    rcases hc with rfl | rfl | rfl | rfl
    · exact (b64Char_ok _ (by omega)).2
    · exact (b64Char_ok _ (by omega)).2
    · exact pad
    · exact pad
  | case3 a b =>
    have ha := UInt8.toNat_lt a
    have hb := UInt8.toNat_lt b
    intro c hc
    simp only [b64Encode, List.mem_cons, List.not_mem_nil, or_false] at hc
    rcases hc with rfl | rfl | rfl | rfl
    · exact (b64Char_ok _ (by omega)).2
    · exact (b64Char_ok _ (by omega)).2
    · exact (b64Char_ok _ (by omega)).2
    · exact pad
  | case4 a b c rest ih =>
    have ha := UInt8.toNat_lt a
    have hb := UInt8.toNat_lt b
    have hc := UInt8.toNat_lt c
    intro x hx
    simp only [b64Encode, List.mem_cons] at hx
    rcases hx with rfl | rfl | rfl | rfl | hx
    · exact (b64Char_ok _ (by omega)).2
    · exact (b64Char_ok _ (by omega)).2
    · exact (b64Char_ok _ (by omega)).2
    · exact (b64Char_ok _ (by omega)).2
    · exact ih x hx

/-- **C22** For every byte string: decoding its hex encoding and decoding its base64 encoding give it back; and a
text decodes as hex exactly when it has even length and consists of hex digits. -/
theorem C22_hex_base64 (b : Str) :
    hexDecode (hexEncode b) = some b ∧ b64Decode (b64Encode b) = some b ∧
    ((∃ r, hexDecode b = some r) ↔ b.length % 2 = 0 ∧ ∀ c ∈ b, IsHexDigit c) := by
  refine ⟨hexDecode_encode b, ?_, ?_⟩
  · have : (b64Encode b).filter (fun c => c ≠ 10 ∧ c ≠ 13) = b64Encode b := by
      rw [List.filter_eq_self]
      intro c hc
      exact decide_eq_true (b64Encode_no_newline b c hc)
    rw [b64Decode, this, b64Groups_encode]
  · rw [← hexDecode_isSome, Option.isSome_iff_exists]

/-- Hex encoding doubles the length (used where the code checks lengths of hex texts). -/
theorem hexEncode_length (b : Str) : (hexEncode b).length = 2 * b.length := by
  induction b with
  | nil => rfl
  | cons a r ih => simp only [hexEncode, List.length_cons, ih]; omega

example : hexEncode (str "Az") = str "417a" := by decide
example : b64Encode (str "any c") = str "YW55IGM=" := by decide
example : b64Decode (str "YW55\nIGM=") = some (str "any c") := by decide
example : hexDecode (str "41zz") = none := by decide

end Wamp
