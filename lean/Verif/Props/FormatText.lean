import Verif.Model.FormatText
import Verif.Spec.FormatText
import Verif.Props.RawSocket
/-!
# C158: the errors about handshakes of raw sockets, payloads and signatures state facts
-/
namespace Wamp.FormatText
open Wamp.Spec.FormatText Wamp.Spec.RouterText Wamp.RawSocket

private theorem dec_num (n : Nat) : ErrorText.dec n = num n := rfl

private theorem type_name (types : Nat → Str) (v : Val) : ErrorText.typeName types v = Spec.Err.goType types v := by
  cases v <;> first | rfl | (rename_i k _; cases k <;> rfl)

private theorem shl1_ne_err (k : Int) : shl1 k ≠ .err := by
  unfold shl1
  split
  · simp
  · split
    · simp
    · split <;> simp

/-- **C158** (sending). `SendHandshake` returns an error exactly if `sendHandshakeError` has a text, and the text states a fact about the
size; for a positive size the texts are exactly those that do. -/
theorem C158_send (f2i : GoFloat → Int) (ser size : Int) :
    (sendHandshake f2i ⟨ser, size⟩ = .err ↔ ∃ t, sendHandshakeError f2i ⟨ser, size⟩ = some t) ∧
    (∀ t, sendHandshakeError f2i ⟨ser, size⟩ = some t → SendSays size t) ∧
    (0 < size → ∀ t, SendSays size t → sendHandshakeError f2i ⟨ser, size⟩ = some t) := by
  have one : sendHandshake f2i ⟨ser, size⟩ = .err ↔ ∃ t, sendHandshakeError f2i ⟨ser, size⟩ = some t := by
    simp only [sendHandshake, sendHandshakeError]
    split
    · simp
    · have hne := shl1_ne_err (log2Int f2i size)
      cases h : shl1 (log2Int f2i size) with
      | ok p => simp only [Res.bind_ok]; split <;> simp
      | err => exact absurd h hne
      | panic => simp
  refine ⟨one, ?_, ?_⟩
  · intro t ht
    by_cases hbig : size > protocolMaxMsgSize
    · simp only [sendHandshakeError, if_pos hbig] at ht
      cases ht
      exact .big (by simp only [protocolMaxMsgSize] at hbig; omega)
    · simp only [sendHandshakeError, if_neg hbig] at ht
      have hle : size ≤ 16 * 1024 * 1024 := by simp only [protocolMaxMsgSize] at hbig; omega
      have hk : ¬∃ k : Nat, size = 2 ^ k ∧ 512 ≤ size := by
        rintro ⟨k, rfl, h5⟩
        have h9 : 9 ≤ k := by
          rcases Nat.lt_or_ge k 9 with h | h
          · have : ((2 : Int) ^ k) ≤ 2 ^ 8 := by
              have := Nat.pow_le_pow_right (n := 2) (by decide) (show k ≤ 8 by omega)
              exact_mod_cast this
            omega
          · exact h
        have h24 : k ≤ 24 := by
          rcases Nat.lt_or_ge 24 k with h | h
          · have : ((2 : Int) ^ 25) ≤ 2 ^ k := by
              have := Nat.pow_le_pow_right (n := 2) (by decide) (show 25 ≤ k by omega)
              exact_mod_cast this
            omega
          · exact h
        rw [log2Int_pow, shl1_nat k h24] at ht
        simp only [ne_eq, not_true, false_or] at ht
        rw [if_neg (by omega)] at ht
        cases ht
      split at ht
      · split at ht
        · cases ht; exact .power hle hk
        · cases ht
      · cases ht
  · intro hp t ht
    cases ht with
    | big h =>
      rw [sendHandshakeError, if_pos (by simp only [protocolMaxMsgSize]; omega)]
    | power h hk =>
      have hbig : ¬size > protocolMaxMsgSize := by simp only [protocolMaxMsgSize]; omega
      have herr := (C07_handshake_sizes_partial (fun _ => 0) ⟨Int.le_refl _, Int.le_refl _⟩ ser size).2.1 hp (by
        rintro ⟨k, h9, h24, rfl⟩
        refine hk ⟨k, rfl, ?_⟩
        have h5 : (2 : Nat) ^ 9 ≤ 2 ^ k := Nat.pow_le_pow_right (by decide) h9
        have h6 : ((2 ^ 9 : Nat) : Int) ≤ ((2 ^ k : Nat) : Int) := Int.ofNat_le.2 h5
        rw [Int.natCast_pow] at h6
        exact Int.le_trans (by decide) h6)
      have hl : ∀ g : GoFloat → Int, log2Int g size = (Nat.log2 size.toNat : Int) := fun g => by rw [log2Int, if_pos hp]
      simp only [sendHandshake, if_neg hbig, hl] at herr
      simp only [sendHandshakeError, if_neg hbig, hl]
      cases hs : shl1 (Nat.log2 size.toNat : Int) with
      | ok p =>
        rw [hs] at herr
        simp only [Res.bind_ok] at herr
        split at herr
        · rename_i hc; exact if_pos hc
        · cases herr
      | err => exact absurd hs (shl1_ne_err _)
      | panic => rw [hs] at herr; cases herr

/-- **C158** (receiving). `ReceiveHandshake` returns an error exactly if `receiveHandshakeError` has a text, and the texts are exactly those that
state a fact about the bytes. -/
theorem C158_receive (data : Str) :
    (receiveHandshake data = .err ↔ ∃ t, receiveHandshakeError data = some t) ∧
    ∀ t, receiveHandshakeError data = some t ↔ ReceiveSays data t := by
  have other : (∀ d0 d1 d2 d3, data ≠ [d0, d1, d2, d3]) → data.length ≠ 4 := by
    intro h hl
    match data, hl with
    | [a, b, c, d], _ => exact h a b c d rfl
  constructor
  · unfold receiveHandshake receiveHandshakeError
    split
    · rename_i d0 d1 d2 d3
      by_cases h0 : d0 ≠ magic
      · simp only [if_pos h0]; simp
      · simp only [if_neg h0]
        by_cases h1 : d2 ≠ 0 ∨ d3 ≠ 0
        · simp only [if_pos h1]; simp
        · simp only [if_neg h1]; simp
    · simp
  · intro t
    unfold receiveHandshakeError
    split
    · rename_i d0 d1 d2 d3
      by_cases h0 : d0 = magic
      · rw [if_neg (by simp [h0])]
        subst h0
        by_cases h1 : d2 = 0 ∧ d3 = 0
        · rw [if_neg (by simp [h1.1, h1.2])]
          constructor
          · intro h; cases h
          · intro h
            cases h with
            | length _ h => simp at h
            | magic _ _ _ _ h => exact absurd rfl h
            | reserved _ _ _ h => exact absurd h1 h
        · rw [if_pos (by by_cases h2 : d2 = 0 <;> simp_all)]
          constructor
          · intro h; cases h; exact .reserved d1 d2 d3 h1
          · intro h
            cases h with
            | length _ h => simp at h
            | magic _ _ _ _ h => exact absurd rfl h
            | reserved => rfl
      · rw [if_pos h0]
        constructor
        · intro h; cases h; exact .magic d0 d1 d2 d3 h0
        · intro h
          cases h with
          | length _ h => simp at h
          | magic => rfl
          | reserved => exact absurd rfl h0
    · rename_i hn
      have hl := other hn
      constructor
      · intro h; cases h; exact .length data hl
      · intro h
        cases h with
        | length => rfl
        | magic => simp at hl
        | reserved => simp at hl

private theorem slice_iff (v : Val) : v.asSlice?.isSome = true ↔ IsList v := by
  cases v <;> simp [Val.asSlice?, IsList]

private theorem dict_iff (v : Val) : v.asMap?.isSome = true ↔ IsDict v := by
  cases v <;> simp [Val.asMap?, IsDict]

private theorem bytes_iff (v : Val) : v.asBytes?.isSome = true ↔ ∃ b, v = .bytes b := by
  cases v <;> simp [Val.asBytes?]

private theorem payload_err (arr : List Val) : payloadDecode arr = .err ↔ ∃ t, payloadError arr = some t := by
  match arr with
  | [] => simp [payloadDecode, payloadError]
  | [a] => simp only [payloadDecode, payloadError]; cases a.asSlice? <;> simp [Res.ofOption]
  | [a, k] => simp only [payloadDecode, payloadError]; cases a.asSlice? <;> cases k.asMap? <;> simp [Res.ofOption]
  | a :: k :: x :: l => simp [payloadDecode, payloadError]

private theorem decode_err (library : Str → Str) (c : Codec) (b : Str) :
    decodePayload c b = .err ↔ ∃ t, decodeError library c b = some t := by
  simp only [decodePayload, decodeError]
  cases c.dec b with
  | none => simp [Res.ofOption]
  | some arr => simp only [Res.ofOption, Res.bind_ok]; exact payload_err arr

private theorem decode_says (library : Nat → Str → Str) (cs : Codecs) (n : Nat) (c : Codec) (hc : ∀ c', (n, c') ∈ formats cs ↔ c' = c) (hn : n ≤ 3)
    (b t : Str) : decodeError (library n) c b = some t ↔ DeserializeSays library cs n b t := by
  have hm := (hc c).2 rfl
  simp only [decodeError]
  cases hd : c.dec b with
  | none =>
    constructor
    · intro h; cases h; exact .undecodable n c b hm hd
    · intro h
      cases h with
      | unknown _ h => omega
      | undecodable => rfl
      | many c' _ l h1 h2 => cases (hc c').1 h1; rw [hd] at h2; cases h2
      | args c' _ a l h1 h2 => cases (hc c').1 h1; rw [hd] at h2; cases h2
      | kwargs c' _ a k h1 h2 => cases (hc c').1 h1; rw [hd] at h2; cases h2
  | some arr =>
    simp only
    constructor
    · intro h
      match arr, h with
      | [a], h =>
        simp only [payloadError] at h
        split at h
        · cases h
        · rename_i ha; cases h; exact .args n c b a [] hm hd (by simp) (fun h => ha ((slice_iff a).2 h))
      | [a, k], h =>
        simp only [payloadError] at h
        split at h
        · rename_i ha
          split at h
          · cases h
          · rename_i hk; cases h; exact .kwargs n c b a k hm hd ((slice_iff a).1 ha) (fun h => hk ((dict_iff k).2 h))
        · rename_i ha; cases h; exact .args n c b a [k] hm hd (by simp) (fun h => ha ((slice_iff a).2 h))
      | a :: k :: x :: l, h => simp only [payloadError] at h; cases h; exact .many n c b _ hm hd (by simp)
    · intro h
      cases h with
      | unknown _ h => omega
      | undecodable c' _ h1 h2 => cases (hc c').1 h1; rw [hd] at h2; cases h2
      | many c' _ l h1 h2 h3 =>
        cases (hc c').1 h1; rw [hd] at h2; cases h2
        match arr, h3 with
        | a :: k :: x :: l, _ => rfl
      | args c' _ a l h1 h2 h3 h4 =>
        cases (hc c').1 h1; rw [hd] at h2; cases h2
        match l, h3 with
        | [], _ => simp only [payloadError]; rw [if_neg (fun h => h4 ((slice_iff a).1 h))]
        | [k], _ => simp only [payloadError]; rw [if_neg (fun h => h4 ((slice_iff a).1 h))]
      | kwargs c' _ a k h1 h2 h3 h4 =>
        cases (hc c').1 h1; rw [hd] at h2; cases h2
        simp only [payloadError]
        rw [if_pos ((slice_iff a).2 h3), if_neg (fun h => h4 ((dict_iff k).1 h))]

/-- **C158** (decoding payloads). `DeserializePayload` returns an error exactly if `deserializeError` has a text, and the texts are exactly those
that state a fact about the number of the format and the bytes. -/
theorem C158_deserialize (library : Nat → Str → Str) (cs : Codecs) (n : Nat) (b : Str) :
    (deserializePayload cs n b = .err ↔ ∃ t, deserializeError library cs n b = some t) ∧
    ∀ t, deserializeError library cs n b = some t ↔ DeserializeSays library cs n b t := by
  match n with
  | 0 =>
    refine ⟨by simp [deserializePayload, deserializeError], fun t => ⟨fun h => ?_, fun h => ?_⟩⟩
    · cases h
    cases h with
    | unknown _ h => omega
    | undecodable _ _ h => simp [formats] at h
    | many _ _ _ h => simp [formats] at h
    | args _ _ _ _ h => simp [formats] at h
    | kwargs _ _ _ _ h => simp [formats] at h
  | 1 => exact ⟨decode_err (library 1) cs.json b, decode_says library cs 1 cs.json (by simp [formats]) (by omega) b⟩
  | 2 => exact ⟨decode_err (library 2) cs.msgpack b, decode_says library cs 2 cs.msgpack (by simp [formats]) (by omega) b⟩
  | 3 => exact ⟨decode_err (library 3) cs.cbor b, decode_says library cs 3 cs.cbor (by simp [formats]) (by omega) b⟩
  | n + 4 =>
    refine ⟨by simp [deserializePayload, deserializeError], fun t => ⟨fun h => ?_, fun h => ?_⟩⟩
    · simp only [deserializeError] at h; cases h; exact .unknown (n + 4) b (by omega)
    · cases h with
      | unknown => rfl
      | undecodable _ _ h => simp [formats] at h
      | many _ _ _ h => simp [formats] at h
      | args _ _ _ _ h => simp [formats] at h
      | kwargs _ _ _ _ h => simp [formats] at h

private theorem prepare_nil (args : GoSlice) (kwargs : GoMap) :
    (prepareForEncode args kwargs).length = 0 ↔ args.getD [] = [] ∧ kwargs.getD [] = [] := by
  simp only [prepareForEncode]
  cases ha : args.getD [] <;> cases hk : kwargs.getD [] <;> simp

private theorem encode_err (cause : Str) (c : Codec) (args : GoSlice) (kwargs : GoMap) :
    encodePayload c args kwargs = .err ↔ ∃ t, encodeError cause c args kwargs = some t := by
  simp only [encodePayload, encodeError]
  split
  · simp
  · cases c.enc (prepareForEncode args kwargs) <;> simp [Res.ofOption]

private theorem encode_says (cause : Str) (cs : Codecs) (n : Nat) (c : Codec) (hc : ∀ c', (n, c') ∈ formats cs ↔ c' = c) (hn : n ≤ 3) (h0 : n ≠ 0)
    (args : GoSlice) (kwargs : GoMap) (t : Str) : encodeError cause c args kwargs = some t ↔ SerializeSays cause cs args kwargs n t := by
  simp only [encodeError]
  constructor
  · intro h
    split at h
    · cases h
    · rename_i hp
      rw [prepare_nil] at hp
      split at h
      · cases h
      · rename_i he
        cases h
        refine .encoder n c ((hc c).2 rfl) ?_ (by cases hx : c.enc (prepareForEncode args kwargs) <;> simp_all)
        by_cases h1 : args.getD [] = []
        · exact .inr fun h2 => hp ⟨h1, h2⟩
        · exact .inl h1
  · intro h
    cases h with
    | unknown _ h => omega
    | encoder _ c' h1 h2 h3 =>
      cases (hc c').1 h1
      rw [if_neg (by rw [prepare_nil]; rintro ⟨h4, h5⟩; exact h2.elim (fun h => h h4) (fun h => h h5)), h3]
      rfl
    | count => exact absurd rfl h0
    | bytes => exact absurd rfl h0

private theorem zero1 : str "serializer " ++ ErrorText.dec 0 ++ str " requires exactly 1 arg" = str "serializer 0 requires exactly 1 arg" := by
  decide +kernel
private theorem zero2 : str "serializer " ++ ErrorText.dec 0 ++ str " requires []byte" = str "serializer 0 requires []byte" := by
  decide +kernel

private theorem zero_err (cause : Str) (cs : Codecs) (args : GoSlice) (kwargs : GoMap) :
    serializePayload cs 0 args kwargs = .err ↔ ∃ t, serializeError cause cs 0 args kwargs = some t := by
  simp only [serializePayload, serializeError, item]
  split
  · simp
  · split
    · simp
    · cases (args.getD [])[0]? with
      | none => simp [Res.orPanic]
      | some v => simp only [Res.orPanic, Res.bind_ok]; cases v.asBytes? <;> simp [Res.ofOption]

private theorem zero_says (cause : Str) (cs : Codecs) (args : GoSlice) (kwargs : GoMap) (t : Str) :
    serializeError cause cs 0 args kwargs = some t ↔ SerializeSays cause cs args kwargs 0 t := by
  simp only [serializeError, zero1, zero2]
  constructor
  · intro h
    split at h
    · cases h
    · rename_i h1
      split at h
      · rename_i h2
        cases h
        refine .count ?_ ?_
        · by_cases ha : args.getD [] = []
          · exact .inr fun hk => h1 (by simp [ha, hk])
          · exact .inl ha
        · rintro ⟨ha, hk⟩
          exact h2.elim (fun h => h ha) (fun h => h (by simp [hk]))
      · rename_i h2
        split at h
        · cases h
        · rename_i v hv
          split at h
          · cases h
          · rename_i hb
            cases h
            have hl : (args.getD []).length = 1 := Classical.not_not.1 fun h => h2 (.inl h)
            have hk : (kwargs.getD []).length = 0 := Classical.not_not.1 fun h => h2 (.inr h)
            refine .bytes v ?_ (List.length_eq_zero_iff.1 hk) fun b hb' => hb ((bytes_iff v).2 ⟨b, hb'⟩)
            cases args with
            | none => simp at hl
            | some l =>
              match l, hl, hv with
              | [x], _, hv => simp at hv; rw [hv]
  · intro h
    cases h with
    | unknown _ h => omega
    | encoder _ _ h => simp [formats] at h
    | count h1 h2 =>
      rw [if_neg, if_pos]
      · by_cases ha : (args.getD []).length = 1
        · exact .inr fun hk => h2 ⟨ha, List.length_eq_zero_iff.1 hk⟩
        · exact .inl ha
      · rintro ⟨ha, hk⟩
        exact h1.elim (fun h => h (List.length_eq_zero_iff.1 ha)) (fun h => h (List.length_eq_zero_iff.1 hk))
    | bytes v h1 h2 h3 =>
      subst h1
      have hb : ¬v.asBytes?.isSome = true := fun h => ((bytes_iff v).1 h).elim h3
      simp [h2, hb]

/-- **C158** (encoding payloads). `SerializePayload` returns an error exactly if `serializeError` has a text, and the texts are exactly those
that state a fact about the number of the format and the arguments. -/
theorem C158_serialize (cause : Str) (cs : Codecs) (n : Nat) (args : GoSlice) (kwargs : GoMap) :
    (serializePayload cs n args kwargs = .err ↔ ∃ t, serializeError cause cs n args kwargs = some t) ∧
    ∀ t, serializeError cause cs n args kwargs = some t ↔ SerializeSays cause cs args kwargs n t := by
  match n with
  | 0 => exact ⟨zero_err cause cs args kwargs, zero_says cause cs args kwargs⟩
  | 1 => exact ⟨encode_err cause cs.json args kwargs, encode_says cause cs 1 cs.json (by simp [formats]) (by omega) (by omega) args kwargs⟩
  | 2 => exact ⟨encode_err cause cs.msgpack args kwargs, encode_says cause cs 2 cs.msgpack (by simp [formats]) (by omega) (by omega) args kwargs⟩
  | 3 => exact ⟨encode_err cause cs.cbor args kwargs, encode_says cause cs 3 cs.cbor (by simp [formats]) (by omega) (by omega) args kwargs⟩
  | n + 4 =>
    refine ⟨by simp [serializePayload, serializeError], fun t => ⟨fun h => ?_, fun h => ?_⟩⟩
    · simp only [serializeError] at h; cases h; exact .unknown (n + 4) (by omega)
    · cases h with
      | unknown => rfl
      | encoder _ _ h => simp [formats] at h

/-- **C158** (`DecodeCBOR`). It returns an error exactly if `decodeCBORError` has a text, and the texts are exactly those that state a fact about the
decoded list. -/
theorem C158_decode_cbor (types : Nat → Str) (library : Str → Str) (c : Codec) (b : Str) :
    (decodeCBOR c b = .err ↔ ∃ t, decodeCBORError types library c b = some t) ∧
    ∀ t, decodeCBORError types library c b = some t ↔ DecodeSays types library c b t := by
  constructor
  · simp only [decodeCBOR, decodeCBORError, item]
    cases c.dec b with
    | none => simp [Res.ofOption]
    | some l =>
      match l with
      | [] => simp [Res.ofOption, Res.orPanic]
      | [a] => cases h : a.asSlice? <;> simp [Res.ofOption, Res.orPanic, h]
      | a :: k :: l => cases h : a.asSlice? <;> cases h' : k.asMap? <;> simp [Res.ofOption, Res.orPanic, h, h']
  · intro t
    constructor
    · intro h
      simp only [decodeCBORError, type_name] at h
      split at h
      · rename_i hd; cases h; exact .undecodable hd
      · rename_i l hd
        match l, hd, h with
        | [], _, h => simp at h
        | [a], hd, h =>
          simp only [List.getElem?_cons_zero] at h
          split at h
          · simp at h
          · rename_i ha; cases h; exact .args a [] hd fun h => ha ((slice_iff a).2 h)
        | a :: k :: l, hd, h =>
          simp only [List.getElem?_cons_zero, List.getElem?_cons_succ] at h
          split at h
          · rename_i ha
            split at h
            · cases h
            · rename_i hk; cases h; exact .kwargs a k l hd ((slice_iff a).1 ha) fun h => hk ((dict_iff k).2 h)
          · rename_i ha; cases h; exact .args a _ hd fun h => ha ((slice_iff a).2 h)
    · intro h
      simp only [decodeCBORError, type_name]
      cases h with
      | undecodable hd => rw [hd]
      | args a l hd ha =>
        rw [hd]
        simp only [List.getElem?_cons_zero]
        rw [if_neg fun h => ha ((slice_iff a).1 h)]
      | kwargs a k l hd ha hk =>
        rw [hd]
        simp only [List.getElem?_cons_zero, List.getElem?_cons_succ]
        rw [if_pos ((slice_iff a).2 ha), if_neg fun h => hk ((dict_iff k).1 h)]

/-- **C158** (signatures). `SignCryptoSignChallenge` and `VerifyCryptoSignSignature` return an error exactly if there is a text: the challenge is not
hexadecimal; the signature is not hexadecimal or has, decoded, another length than 96, and the text tells the length. -/
theorem C158_signatures (cr : Crypto) (hexText : Str → Str) (challenge seed signature key : Str) :
    (signCryptoSign cr challenge seed = none ↔ ∃ t, signError hexText challenge = some t) ∧
    (∀ t, signError hexText challenge = some t ↔
      hexDecode challenge = none ∧ t = str "failed to decode challenge: " ++ hexText challenge) ∧
    (verifyCryptoSign cr signature key = none ↔ ∃ t, verifyError hexText signature = some t) ∧
    (∀ t, verifyError hexText signature = some t ↔
      hexDecode signature = none ∧ t = hexText signature ∨
      ∃ raw, hexDecode signature = some raw ∧ raw.length ≠ 96 ∧
        t = str "signed message has invalid length (was " ++ num raw.length ++ str ", but should have been 96)") := by
  refine ⟨?_, ?_, ?_, ?_⟩
  · simp only [signCryptoSign, signError]; cases hexDecode challenge <;> simp
  · intro t; simp only [signError]; cases hexDecode challenge <;> simp [eq_comm]
  · simp only [verifyCryptoSign, verifyError]
    cases hexDecode signature with
    | none => simp
    | some raw => simp only; split <;> simp
  · intro t
    simp only [verifyError, dec_num]
    cases hexDecode signature with
    | none => simp [eq_comm]
    | some raw =>
      simp only
      split
      · rename_i h; simp [eq_comm, h]
      · rename_i h; simp [Classical.not_not.1 h]

/-! Each text occurs. -/

example : sendHandshakeError amd64 ⟨1, 2 ^ 24 + 1⟩ = some (str "maxMessageSize must not be more than 16 megabytes") ∧
    sendHandshakeError amd64 ⟨1, 1000⟩ = some (str "maxMessageSize must be a power of 2 and >= 512") ∧
    sendHandshakeError amd64 ⟨1, 256⟩ = some (str "maxMessageSize must be a power of 2 and >= 512") ∧
    sendHandshakeError amd64 ⟨1, 512⟩ = none := by decide +kernel
example : receiveHandshakeError [] = some (str "expected 4 bytes for handshake response, got 0") ∧
    receiveHandshakeError [1, 2, 3, 4] = some (str "expected MAGIC, got 1") ∧
    receiveHandshakeError [0x7F, 2, 3, 4] = some (str "expected 0x00 for third and fourth byte, got 3 and 4") ∧
    receiveHandshakeError [0x7F, 2, 0, 0] = none := by decide +kernel
example : payloadError [.nil] = some (str "args element is not []any") ∧
    payloadError [.arr [], .arr []] = some (str "kwargs element is not map[string]any") ∧
    payloadError [.arr [], .map [], .nil] = some (str "too many args to decode") ∧ payloadError [.arr [], .map []] = none := by decide +kernel
example (cs : Codecs) : deserializeError (fun _ _ => []) cs 4 [] = some (str "serializer 4 not recognized") ∧
    serializeError [] cs 0 (some [.nil, .nil]) none = some (str "serializer 0 requires exactly 1 arg") ∧
    serializeError [] cs 0 (some [.nil]) none = some (str "serializer 0 requires []byte") ∧
    serializeError [] cs 0 (some [.bytes []]) none = none := ⟨rfl, rfl, rfl, rfl⟩
example : decodeCBORError (fun _ => []) (fun _ => []) ⟨fun _ => none, fun _ => some [.arr [], .bool true]⟩ [] = some (str "invalid kwargs type: bool") := rfl
example : verifyError (fun _ => []) (str "00ff") = some (str "signed message has invalid length (was 2, but should have been 96)") := by decide +kernel

end Wamp.FormatText
