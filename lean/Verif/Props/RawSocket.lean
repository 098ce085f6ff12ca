import Verif.Model.RawSocket
/-!
# C04–C08: rawsocket framing and handshake
-/
namespace Wamp.RawSocket
open Wamp

/-! ## Frame header -/

theorem shl8_or (n : Nat) (b : UInt8) (h : n < 2 ^ 56) :
    ((n <<< 8) % 2 ^ 64) ||| b.toNat = n * 256 + b.toNat := by
  have h1 : (n <<< 8) % 2 ^ 64 = n <<< 8 := by
    rw [Nat.shiftLeft_eq]; apply Nat.mod_eq_of_lt; omega
  rw [h1, ← Nat.shiftLeft_add_eq_or_of_lt (UInt8.toNat_lt b), Nat.shiftLeft_eq]

theorem bytesToInt_three (a b c : UInt8) :
    bytesToInt [a, b, c] = (a.toNat * 65536 + b.toNat * 256 + c.toNat : Nat) := by
  have ha := UInt8.toNat_lt a
  have hb := UInt8.toNat_lt b
  have hc := UInt8.toNat_lt c
  unfold bytesToInt
  simp only [List.foldl]
  rw [shl8_or 0 a (by decide), shl8_or _ b (by omega), shl8_or _ c (by omega)]
  rw [toSigned64, if_pos (by omega)]
  omega

/-- **C04** For every kind and every length below `2^24`, the header consists of the kind byte and the length in
three big-endian bytes, and receiving it gives back exactly the kind and the length. -/
theorem C04_header_roundtrip (kind : UInt8) (n : Nat) (hn : n < 2 ^ 24) :
    receiveMessageHeader (sendMessageHeader ⟨kind, n⟩) = .ok ⟨kind, n⟩ ∧
    ∃ a b c : UInt8, sendMessageHeader ⟨kind, n⟩ = [kind, a, b, c] ∧
      a.toNat * 2 ^ 16 + b.toNat * 2 ^ 8 + c.toNat = n := by
  have e : sendMessageHeader ⟨kind, n⟩ =
      [kind, UInt8.ofNat (n / 2 ^ 16 % 256), UInt8.ofNat (n / 2 ^ 8 % 256), UInt8.ofNat (n % 256)] := by
    simp only [sendMessageHeader, intToBytes]
    congr <;> omega
  have hb : ∀ m, m < 256 → (UInt8.ofNat m).toNat = m := fun m hm => by
    simp [Nat.mod_eq_of_lt hm]
  have hsum : (UInt8.ofNat (n / 2 ^ 16 % 256)).toNat * 2 ^ 16 +
      (UInt8.ofNat (n / 2 ^ 8 % 256)).toNat * 2 ^ 8 + (UInt8.ofNat (n % 256)).toNat = n := by
    rw [hb _ (Nat.mod_lt _ (by decide)), hb _ (Nat.mod_lt _ (by decide)), hb _ (Nat.mod_lt _ (by decide))]
    omega
  refine ⟨?_, _, _, _, e, hsum⟩
  rw [e]
  simp only [receiveMessageHeader, bytesToInt_three]
  congr 3

example : sendMessageHeader ⟨0, 0x012345⟩ = [0, 0x01, 0x23, 0x45] := by decide

theorem shl8_or_mod (n : Nat) (b : UInt8) : ((n <<< 8) % 2 ^ 64) ||| b.toNat = (n * 256 + b.toNat) % 2 ^ 64 := by
  have hb := UInt8.toNat_lt b
  have h1 : (n <<< 8) % 2 ^ 64 = (n % 2 ^ 56) <<< 8 := by
    rw [Nat.shiftLeft_eq, Nat.shiftLeft_eq]; omega
  rw [h1, ← Nat.shiftLeft_add_eq_or_of_lt hb, Nat.shiftLeft_eq]
  omega

theorem fold_bytes (b : Str) (n m : Nat) (h : n % 2 ^ 64 = m % 2 ^ 64) :
    (b.foldl (fun n x => ((n <<< 8) % 2 ^ 64) ||| x.toNat) n) % 2 ^ 64 = (b.foldl (fun n x => n * 256 + x.toNat) m) % 2 ^ 64 := by
  induction b generalizing n m with
  | nil => exact h
  | cons x b ih =>
    simp only [List.foldl_cons]
    refine ih _ _ ?_
    rw [shl8_or_mod]
    omega

/-- **C04** `IntToBytes` gives the low 24 bits of any integer, highest byte first. -/
theorem C04_int_to_bytes (i : Int) : ∃ a b c : UInt8, intToBytes i = [a, b, c] ∧ ((a.toNat * 2 ^ 16 + b.toNat * 2 ^ 8 + c.toNat : Nat) : Int) = i % 2 ^ 24 := by
  refine ⟨_, _, _, rfl, ?_⟩
  have hb : ∀ m, m < 256 → (UInt8.ofNat m).toNat = m := fun m hm => by simp [Nat.mod_eq_of_lt hm]
  rw [hb _ (by omega), hb _ (by omega), hb _ (by omega)]
  omega

/-- **C04** `BytesToInt` gives, for any bytes, the number they stand for, highest byte first, modulo `2^64` and as a signed 64-bit number. -/
theorem C04_bytes_to_int (b : Str) : -2 ^ 63 ≤ bytesToInt b ∧ bytesToInt b < 2 ^ 63 ∧
    bytesToInt b % 2 ^ 64 = ((b.foldl (fun n x => n * 256 + x.toNat) 0 : Nat) : Int) % 2 ^ 64 := by
  have h := fold_bytes b 0 0 rfl
  have hlt : b.foldl (fun n x => ((n <<< 8) % 2 ^ 64) ||| x.toNat) 0 < 2 ^ 64 := by
    rw [← List.reverse_reverse b, List.foldl_reverse]
    cases b.reverse with
    | nil => decide
    | cons x l => simp only [List.foldr_cons]; rw [shl8_or_mod]; omega
  unfold bytesToInt toSigned64
  generalize b.foldl (fun n x => ((n <<< 8) % 2 ^ 64) ||| x.toNat) 0 = u at h hlt
  generalize b.foldl (fun n x => n * 256 + x.toNat) 0 = v at h
  split <;> omega

example : bytesToInt [255, 255, 255, 255, 255, 255, 255, 254] = -2 ∧ bytesToInt [128, 0, 0, 0, 0, 0, 0, 0] = -2 ^ 63 ∧
    bytesToInt [9, 127, 0, 0, 0, 0, 0, 0, 1] = 127 * 2 ^ 56 + 1 ∧ intToBytes (-1) = [255, 255, 255] := by decide

/-- Every header that can be received from four bytes is below `2^24` and is sent as the same bytes: sending
inverts receiving. -/
theorem C04_header_receive_send (k a b c : UInt8) :
    ∃ h, receiveMessageHeader [k, a, b, c] = .ok h ∧ 0 ≤ h.length ∧ h.length < 2 ^ 24 ∧
      sendMessageHeader h = [k, a, b, c] := by
  have ha := UInt8.toNat_lt a
  have hb := UInt8.toNat_lt b
  have hc := UInt8.toNat_lt c
  refine ⟨_, rfl, ?_⟩
  simp only [bytesToInt_three]
  refine ⟨by omega, by omega, ?_⟩
  simp only [sendMessageHeader, intToBytes]
  have h1 : (((a.toNat * 65536 + b.toNat * 256 + c.toNat : Nat) : Int) / 2 ^ 16 % 256).toNat = a.toNat := by omega
  have h2 : (((a.toNat * 65536 + b.toNat * 256 + c.toNat : Nat) : Int) / 2 ^ 8 % 256).toNat = b.toNat := by omega
  have h3 : (((a.toNat * 65536 + b.toNat * 256 + c.toNat : Nat) : Int) % 256).toNat = c.toNat := by omega
  rw [h1, h2, h3]
  simp

/-! ## Handshake -/

theorem shl1_nat (k : Nat) (h : k ≤ 24) : shl1 (k : Int) = .ok (2 ^ k) := by
  have h1 : ¬ ((k : Int) < 0) := by omega
  have h2 : (k : Int) < 63 := by omega
  rw [shl1, if_neg h1, if_pos h2]
  simp

theorem log2Int_pow (f2i : GoFloat → Int) (k : Nat) : log2Int f2i (2 ^ k) = k := by
  have h : (0 : Int) < 2 ^ k := Int.pow_pos (by decide)
  have e : ((2 : Int) ^ k).toNat = 2 ^ k := by
    have : ((2 : Int) ^ k) = ((2 ^ k : Nat) : Int) := by simp
    rw [this]; exact Int.toNat_natCast _
  rw [log2Int, if_pos h, e, Nat.log2_two_pow]

theorem pow_le_24 {k : Nat} (h : k ≤ 24) : ((2 : Int) ^ k) ≤ protocolMaxMsgSize := by
  have : (2 : Nat) ^ k ≤ 2 ^ 24 := Nat.pow_le_pow_right (by decide) h
  have h2 : ((2 ^ k : Nat) : Int) ≤ ((2 ^ 24 : Nat) : Int) := Int.ofNat_le.2 this
  simpa [protocolMaxMsgSize] using h2

theorem sendHandshake_pow (f2i : GoFloat → Int) (ser : Int) (k : Nat) (h9 : 9 ≤ k) (h24 : k ≤ 24) :
    sendHandshake f2i ⟨ser, 2 ^ k⟩ =
      .ok [0x7F, UInt8.ofNat (((k - 9) <<< 4) ||| (ser % 16).toNat), 0, 0] := by
  have h1 : ¬ ((2 : Int) ^ k > protocolMaxMsgSize) := Int.not_lt.2 (pow_le_24 h24)
  have h2 : ((k : Int) - 9).toNat = k - 9 := by omega
  simp only [sendHandshake, if_neg h1, log2Int_pow, shl1_nat k h24, Res.bind_ok, h2, magic]
  rw [if_neg (by simp; omega)]

/-- **C07** (partial) For every machine integer `size` (any integer at all), with any conversion of
unrepresentable floats that maps `-Inf` and `NaN` to values that are not positive (amd64: `-2^63` for both;
arm64: `-2^63` and 0):
`SendHandshake` succeeds if and only if `size` is a power of two between `2^9` and `2^24`; for every other
positive size it returns an error. Missing: "never crashes" fails for `size ≤ 0`, see
`C07_nonpositive_size_crashes`. -/
theorem C07_handshake_sizes_partial (f2i : GoFloat → Int) (hf : f2i (.inf true) ≤ 0 ∧ f2i .nan ≤ 0) (ser size : Int) :
    ((∃ b, sendHandshake f2i ⟨ser, size⟩ = .ok b) ↔ ∃ k, 9 ≤ k ∧ k ≤ 24 ∧ size = 2 ^ k) ∧
    (0 < size → (¬ ∃ k, 9 ≤ k ∧ k ≤ 24 ∧ size = 2 ^ k) → sendHandshake f2i ⟨ser, size⟩ = .err) ∧
    (sendHandshake f2i ⟨ser, size⟩ = .panic → size ≤ 0) := by
  have hpos : 0 < size → ∀ r, sendHandshake f2i ⟨ser, size⟩ = r →
      (r = .err ∧ ¬ ∃ k, 9 ≤ k ∧ k ≤ 24 ∧ size = 2 ^ k) ∨
      ((∃ b, r = .ok b) ∧ ∃ k, 9 ≤ k ∧ k ≤ 24 ∧ size = 2 ^ k) := by
    intro hp r hr
    by_cases hk : ∃ k, 9 ≤ k ∧ k ≤ 24 ∧ size = 2 ^ k
    · obtain ⟨k, h9, h24, rfl⟩ := hk
      right
      rw [sendHandshake_pow f2i ser k h9 h24] at hr
      exact ⟨⟨_, hr.symm⟩, k, h9, h24, rfl⟩
    · left
      refine ⟨?_, hk⟩
      subst hr
      by_cases hbig : size > protocolMaxMsgSize
      · simp only [sendHandshake, if_pos hbig]
      · have hlog : log2Int f2i size = (Nat.log2 size.toNat : Int) := by rw [log2Int, if_pos hp]
        have hle : Nat.log2 size.toNat ≤ 24 := by
          have h0 : size.toNat ≠ 0 := by omega
          have h1 := Nat.log2_self_le h0
          have h3 : size.toNat ≤ 2 ^ 24 := by simp only [protocolMaxMsgSize] at hbig; omega
          have h4 := Nat.le_trans h1 h3
          exact (Nat.pow_le_pow_iff_right (by decide)).1 h4
        simp only [sendHandshake, if_neg hbig, hlog, shl1_nat _ hle, Res.bind_ok]
        split
        · rfl
        · next hcond =>
          exfalso
          apply hk
          have h5 : 2 ^ Nat.log2 size.toNat = size ∧ ¬ ((Nat.log2 size.toNat : Int) < 9) := by
            constructor
            · exact Classical.not_not.1 fun h => hcond (Or.inl h)
            · exact fun h => hcond (Or.inr h)
          exact ⟨Nat.log2 size.toNat, by omega, hle, h5.1.symm⟩
  have hneg : size ≤ 0 → ∀ b, sendHandshake f2i ⟨ser, size⟩ ≠ .ok b := by
    intro hs b hb
    have hbig : ¬ (size > protocolMaxMsgSize) := by simp only [protocolMaxMsgSize]; omega
    simp only [sendHandshake, if_neg hbig] at hb
    have hl : log2Int f2i size ≤ 0 := by
      have : ¬ 0 < size := by omega
      rw [log2Int, if_neg this]
      split
      · exact hf.1
      · exact hf.2
    generalize log2Int f2i size = lg at hb hl
    unfold shl1 at hb
    split at hb
    · simp at hb
    · have : lg = 0 := by omega
      subst this
      simp at hb
  refine ⟨⟨fun ⟨b, hb⟩ => ?_, fun ⟨k, h9, h24, e⟩ => ?_⟩, fun hp hk => ?_, fun hpan => ?_⟩
  · by_cases hp : 0 < size
    · rcases hpos hp _ hb with h | h
      · cases h.1
      · exact h.2
    · exact absurd hb (hneg (by omega) b)
  · subst e; exact ⟨_, sendHandshake_pow f2i ser k h9 h24⟩
  · rcases hpos hp _ rfl with h | h
    · exact h.1
    · exact absurd h.2 hk
  · refine Classical.byContradiction fun hp => ?_
    rcases hpos (by omega) _ hpan with h | h
    · cases h.1
    · obtain ⟨b, hb⟩ := h.1; cases hb

/-- Conversion of unrepresentable floats to `int` on amd64 (`CVTTSD2SI`): the "integer indefinite" value. -/
def amd64 : GoFloat → Int := fun _ => -(2 ^ 63)

example : amd64 (.inf true) ≤ 0 ∧ amd64 .nan ≤ 0 := by decide
example : sendHandshake amd64 ⟨1, 2 ^ 20⟩ = .ok [0x7F, 0xB1, 0, 0] := by decide
example : sendHandshake amd64 ⟨1, 2 ^ 20 + 1⟩ = .err := by decide

/-- **C07** (refuted part) On a platform whose conversion of `-Inf` and `NaN` gives a negative number (amd64),
`SendHandshake` crashes for every size that is zero or negative. -/
theorem C07_nonpositive_size_crashes (f2i : GoFloat → Int) (hf : f2i (.inf true) < 0 ∧ f2i .nan < 0)
    (ser size : Int) (hs : size ≤ 0) : sendHandshake f2i ⟨ser, size⟩ = .panic := by
  have hbig : ¬ (size > protocolMaxMsgSize) := by simp only [protocolMaxMsgSize]; omega
  have hl : log2Int f2i size < 0 := by
    have : ¬ 0 < size := by omega
    rw [log2Int, if_neg this]
    split
    · exact hf.1
    · exact hf.2
  simp only [sendHandshake, if_neg hbig, shl1, if_pos hl, Res.bind_panic]

example : sendHandshake amd64 ⟨1, 0⟩ = .panic := by decide

/-! ### Receiving -/

theorem receive_table : ∀ n : Fin 256,
    let d := UInt8.ofNat n.val
    ((d >>> 4) + 9).toNat = n.val / 16 + 9 ∧ (d &&& 0x0F).toNat = n.val % 16 ∧
    UInt8.ofNat (((n.val / 16) <<< 4) ||| (((d &&& 0x0F).toNat : Int) % 16).toNat) = d := by
  decide +kernel

theorem receive_byte (d : UInt8) :
    ((d >>> 4) + 9).toNat = d.toNat / 16 + 9 ∧ (d &&& 0x0F).toNat = d.toNat % 16 ∧
    UInt8.ofNat (((d.toNat / 16) <<< 4) ||| (((d &&& 0x0F).toNat : Int) % 16).toNat) = d := by
  have h := receive_table ⟨d.toNat, UInt8.toNat_lt d⟩
  simpa using h

/-- **C08** Every byte string of any length: `ReceiveHandshake` accepts it exactly when it has length 4, starts with
`0x7F` and ends with two zero bytes; the reported size is then a power of two between `2^9` and `2^24` and the
serializer between 0 and 15; every other byte string gives an error, never a crash. -/
theorem C08_receive_handshake (data : Str) :
    (∀ x, data = [0x7F, x, 0, 0] → ∃ h, receiveHandshake data = .ok h ∧
        (∃ k, 9 ≤ k ∧ k ≤ 24 ∧ h.maxMessageSize = 2 ^ k) ∧ 0 ≤ h.serializer ∧ h.serializer ≤ 15) ∧
    ((¬ ∃ x, data = [0x7F, x, 0, 0]) → receiveHandshake data = .err) := by
  constructor
  · rintro x rfl
    obtain ⟨h1, h2, -⟩ := receive_byte x
    have hx := UInt8.toNat_lt x
    refine ⟨_, rfl, ⟨((x >>> 4) + 9).toNat, ?_, ?_, rfl⟩, ?_, ?_⟩
    all_goals simp only [h1, h2]
    all_goals omega
  · intro h
    unfold receiveHandshake
    split
    · next d0 d1 d2 d3 =>
      split
      · rfl
      · next h0 =>
        split
        · rfl
        · next h23 =>
          exfalso
          apply h
          refine ⟨d1, ?_⟩
          have e0 : d0 = 0x7F := Classical.not_not.1 h0
          have e2 : d2 = 0 := Classical.not_not.1 fun h => h23 (Or.inl h)
          have e3 : d3 = 0 := Classical.not_not.1 fun h => h23 (Or.inr h)
          rw [e0, e2, e3]
    · rfl

example : receiveHandshake [0x7F, 0xF3, 0, 0] = .ok ⟨3, 2 ^ 24⟩ := by decide

theorem send_byte_table : ∀ (s : Fin 16) (j : Fin 16),
    let d := UInt8.ofNat ((j.val <<< 4) ||| s.val)
    (d &&& 0x0F).toNat = s.val ∧ ((d >>> 4) + 9).toNat = j.val + 9 := by
  decide +kernel

/-- **C06** For every serializer number 0..15 and every size that `SendHandshake` accepts, receiving the sent bytes
returns the same serializer and size; and every byte string that `ReceiveHandshake` accepts is reproduced by
sending the result. -/
theorem C06_handshake_roundtrip (f2i : GoFloat → Int) (hf : f2i (.inf true) ≤ 0 ∧ f2i .nan ≤ 0) :
    (∀ h b, 0 ≤ h.serializer → h.serializer ≤ 15 → sendHandshake f2i h = .ok b → receiveHandshake b = .ok h) ∧
    (∀ b h, receiveHandshake b = .ok h → sendHandshake f2i h = .ok b) := by
  constructor
  · rintro ⟨ser, size⟩ b h0 h15 hb
    obtain ⟨k, h9, h24, rfl⟩ := (C07_handshake_sizes_partial f2i hf ser size).1.1 ⟨b, hb⟩
    rw [sendHandshake_pow f2i ser k h9 h24] at hb
    injection hb with hb
    subst hb
    simp only at h0 h15
    have hs : (ser % 16).toNat = ser.toNat := by omega
    have ht := send_byte_table ⟨ser.toNat, by omega⟩ ⟨k - 9, by omega⟩
    simp only at ht
    simp only [receiveHandshake, magic, hs, ht.1, ht.2]
    have e1 : ((ser.toNat : Nat) : Int) = ser := by omega
    have e2 : k - 9 + 9 = k := by omega
    simp [e1, e2]
  · intro b h hb
    have hc := C08_receive_handshake b
    by_cases hx : ∃ x, b = [0x7F, x, 0, 0]
    · obtain ⟨x, rfl⟩ := hx
      simp only [receiveHandshake, magic] at hb
      obtain ⟨h1, h2, h3⟩ := receive_byte x
      have hxl := UInt8.toNat_lt x
      have : h = ⟨(x &&& 0x0F).toNat, (2 : Int) ^ ((x >>> 4) + 9).toNat⟩ := by
        simpa using hb.symm
      subst this
      rw [sendHandshake_pow f2i _ _ (by omega) (by omega), h1, Nat.add_sub_cancel, h3]
    · rw [hc.2 hx] at hb; cases hb

example : (amd64 (.inf true) ≤ 0 ∧ amd64 .nan ≤ 0) ∧
    sendHandshake amd64 ⟨2, 512⟩ = .ok [0x7F, 0x02, 0, 0] := by decide

/-- **C05** (refuted) The maximal size can be announced, but a frame of exactly that size gets a header that
announces length 0. -/
theorem C05_max_length_lost (f2i : GoFloat → Int) (kind : UInt8) :
    ∃ b h, sendHandshake f2i ⟨1, 2 ^ 24⟩ = .ok b ∧ receiveHandshake b = .ok h ∧ h.maxMessageSize = 2 ^ 24 ∧
      receiveMessageHeader (sendMessageHeader ⟨kind, h.maxMessageSize⟩) = .ok ⟨kind, 0⟩ := by
  refine ⟨_, ⟨1, 2 ^ 24⟩, sendHandshake_pow f2i 1 24 (by decide) (by decide), by decide, rfl, ?_⟩
  have e : intToBytes (2 ^ 24) = [0, 0, 0] := by decide
  have e2 : bytesToInt [0, 0, 0] = 0 := by decide
  simp only [sendMessageHeader, receiveMessageHeader, e, e2]

/-- **C05** (partial) For every announced size, every length up to it survives the frame header, except the length
`2^24` (announced size `2^24`), which does not fit three bytes. -/
theorem C05_announced_lengths_partial (b : Str) (h : Handshake) (hb : receiveHandshake b = .ok h)
    (kind : UInt8) (n : Nat) (hn : (n : Int) ≤ h.maxMessageSize) (hlast : n ≠ 2 ^ 24) :
    receiveMessageHeader (sendMessageHeader ⟨kind, n⟩) = .ok ⟨kind, n⟩ := by
  refine (C04_header_roundtrip kind n ?_).1
  by_cases hx : ∃ x, b = [0x7F, x, 0, 0]
  · obtain ⟨x, hx⟩ := hx
    obtain ⟨h', e, ⟨k, -, h24, e2⟩, -⟩ := (C08_receive_handshake b).1 x hx
    rw [hb] at e
    injection e with e
    subst e
    have := pow_le_24 h24
    rw [e2] at hn
    simp only [protocolMaxMsgSize] at this
    omega
  · rw [(C08_receive_handshake b).2 hx] at hb; cases hb

example : receiveHandshake [0x7F, 0xF1, 0, 0] = .ok ⟨1, 2 ^ 24⟩ ∧ ((65536 : Nat) : Int) ≤ 2 ^ 24 ∧ 65536 ≠ 2 ^ 24 := by
  decide

/-- Receiving a frame header from an empty read crashes; any non-empty one does not. -/
theorem receiveMessageHeader_panic (data : Str) : receiveMessageHeader data = .panic ↔ data = [] := by
  cases data <;> simp [receiveMessageHeader]

end Wamp.RawSocket
