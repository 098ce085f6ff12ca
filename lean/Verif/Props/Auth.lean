import Verif.Lemmas.Float
import Verif.Model.Auth
import Verif.Model.Acceptor
import Verif.Model.Wire
import Verif.Props.Encoding
import Verif.Props.Messages
/-!
# C23–C29: credentials
-/
namespace Wamp

/-- **C23** For every MAC function, challenge and key: the signature verifies. -/
theorem C23_cra_completeness (cr : Crypto) (ch key : Str) : verifyCRA cr (signCRA cr ch key) ch key = true := by
  simp [verifyCRA, signCRA, (C22_hex_base64 _).2.1]

/-- **C24** A signature verifies exactly when it is base64 whose decoding is the MAC of that challenge under that key. -/
theorem C24_cra_soundness (cr : Crypto) (sig ch key : Str) :
    verifyCRA cr sig ch key = true ↔ b64Decode sig = some (cr.hmac key ch) := by
  unfold verifyCRA signCRABytes
  cases b64Decode sig <;> simp

/-- Not base64: rejected. Base64 of something else: rejected (with the MAC that always answers `[1]`). -/
example (cr : Crypto) (ch key : Str) : verifyCRA cr (str "a?==") ch key = false := rfl
example : let cr : Crypto := ⟨fun _ _ => [1], fun _ _ _ _ => [], id, fun _ _ => [], fun _ _ _ => false⟩
    verifyCRA cr (str "Ag==") [] [] = false ∧ verifyCRA cr (str "AQ==") [] [] = true := by decide

/-- **C25** Whatever the response of the server's authenticator (any salt, iteration count, key length), if the two
numbers survive the wire then the client, given the CHALLENGE the acceptor builds and the same secret, signs the
challenge with exactly the key the acceptor verifies with; if the acceptor's key derivation crashes (negative key length),
so does the client's. -/
theorem C25_same_cra_key (cr : Crypto) (norm : Val → Val) (hs : ∀ s, norm (.str s) = .str s)
    (i : CRAInfo) (hi : asInt (norm (.int .int i.iterations)) = some i.iterations)
    (hk : asInt (norm (.int .int i.keyLen)) = some i.keyLen) (ch : Str) (ex : GoMap) :
    craAuthenticate cr i.secret ex (some ((Acceptor.craExtra ch i).map fun p => (p.1, norm p.2))) =
      (craKey cr i).map fun key => (signCRA cr ch key, ex) := by
  unfold craAuthenticate craKey Acceptor.craExtra
  by_cases h : i.salt = []
  · simp only [if_pos h, List.map_cons, List.map_nil, hs]
    rfl
  · simp only [if_neg h, List.map_cons, List.map_nil, hs]
    have e1 : GoMap.text (some [(str "challenge", .str ch), (str "iterations", norm (.int .int i.iterations)),
        (str "keylen", norm (.int .int i.keyLen)), (str "salt", .str i.salt)]) (str "challenge") = ch := rfl
    have e2 : GoMap.text (some [(str "challenge", .str ch), (str "iterations", norm (.int .int i.iterations)),
        (str "keylen", norm (.int .int i.keyLen)), (str "salt", .str i.salt)]) (str "salt") = i.salt := rfl
    have e3 : GoMap.get (some [(str "challenge", .str ch), (str "iterations", norm (.int .int i.iterations)),
        (str "keylen", norm (.int .int i.keyLen)), (str "salt", .str i.salt)]) (str "iterations") =
        some (norm (.int .int i.iterations)) := rfl
    have e4 : GoMap.get (some [(str "challenge", .str ch), (str "iterations", norm (.int .int i.iterations)),
        (str "keylen", norm (.int .int i.keyLen)), (str "salt", .str i.salt)]) (str "keylen") =
        some (norm (.int .int i.keyLen)) := rfl
    simp only [e1, e2, e3, e4, Option.bind_some, hi, hk, Option.getD_some, if_pos (show i.salt ≠ [] from h)]
    rfl

theorem f64OfInt_asInt (v : Int) (h1 : -(2 ^ 53) ≤ v) (h2 : v ≤ 2 ^ 53) : asInt (.f64 (f64OfInt v)) = some v := by
  obtain ⟨m, e, hr, ht, hv⟩ := round_nat v.natAbs (by omega)
  rw [f64OfInt, hr, signedFloat]
  have hg : GoFloat.inIntRange (.fin (decide (v < 0)) m e) = true := by
    rw [GoFloat.inIntRange, GoFloat.magLe]
    split
    · rename_i he
      rw [show (-e).toNat = 0 by omega, Nat.pow_zero, Nat.mul_one] at hv
      rw [← hv]
      simp; omega
    · rename_i he
      rw [show e.toNat = 0 by omega, Nat.pow_zero, Nat.mul_one] at hv
      rw [← hv]
      exact decide_eq_true (Nat.mul_le_mul_right _ (by omega))
  simp only [asInt, hg, if_true, GoFloat.toInt, ht]
  by_cases hv : v < 0
  · have : (-(v.natAbs : Int)) = v := by omega
    simp [hv, this]; omega
  · have : ((v.natAbs : Int)) = v := by omega
    simp [hv, this]; omega

theorem msgpackCompact_asInt (v : Int) (h1 : -(2 ^ 63) ≤ v) (h2 : v < 2 ^ 63) : asInt (msgpackCompactInt v) = some v := by
  unfold msgpackCompactInt msgpackCompactUint
  repeat' split
  all_goals simp only [asInt]
  all_goals first
    | (simp only [Option.some.injEq]; omega)
    | (split <;> first | rfl | (simp only [Option.some.injEq]; omega) | omega)

/-- The numbers survive: any `int` over CBOR and MsgPack, any integer up to `2^53` in magnitude over JSON. -/
theorem C25_numbers_survive (v : Int) (h1 : -(2 ^ 63) ≤ v) (h2 : v < 2 ^ 63) :
    asInt (cborWire (.int .int v)) = some v ∧ asInt (msgpackWire (.int .int v)) = some v ∧
    (-(2 ^ 53) ≤ v → v ≤ 2 ^ 53 → asInt (jsonWire (.int .int v)) = some v) := by
  refine ⟨?_, ?_, ?_⟩
  · simp only [cborWire, wire, cborLeaf]
    split
    · simp only [asInt]; split
      · simp only [Option.some.injEq]; omega
      · omega
    · simp only [asInt]; split
      · rfl
      · omega
  · simp only [msgpackWire, wire, msgpackLeaf]
    exact msgpackCompact_asInt v h1 h2
  · intro a b
    simp only [jsonWire, wire, jsonLeaf]
    exact f64OfInt_asInt v a b

example : (-(2 ^ 63) : Int) ≤ 1000 ∧ (1000 : Int) ≤ 2 ^ 53 := by decide

/-- What is expected of the signature scheme: keys of 32 bytes, signatures of 64 bytes, honest signatures verify. -/
structure SigScheme (cr : Crypto) : Prop where
  pub : ∀ seed, seed.length = 32 → (cr.pubOfSeed seed).length = 32
  sig : ∀ seed m, seed.length = 32 → (cr.sign seed m).length = 64
  ok : ∀ seed m, seed.length = 32 → cr.verify (cr.pubOfSeed seed) m (cr.sign seed m) = true

/-- The contract can be met. -/
example : ∃ cr, SigScheme cr :=
  ⟨⟨fun _ _ => [], fun _ _ _ _ => [], id, fun s m => s ++ s, fun p _ s => s == p ++ p⟩,
    fun s h => h, fun s _ h => by simp [h], fun s _ _ => by simp⟩

theorem copy32_of_length (b : Str) (h : b.length = 32) : copy32 b = b := by
  have : b.take 32 = b := List.take_of_length_le (by omega)
  simp [copy32, h, this]

theorem hexDecode_append (a b : Str) {x y : Str} (ha : hexDecode a = some x) (hb : hexDecode b = some y) :
    hexDecode (a ++ b) = some (x ++ y) := by
  fun_induction hexDecode a generalizing x with
  | case1 => simp at ha; subst ha; simpa using hb
  | case2 => cases ha
  | case3 a c rest u v r hr h1 h2 ih =>
    cases ha
    simp [hexDecode, h1, h2, ih hr]
  | case4 => simp at ha

/-- **C26** For every seed of 32 bytes and every hex-encoded challenge of 32 bytes (either case): signing succeeds and the
result verifies under the public key. -/
theorem C26_cryptosign_completeness (cr : Crypto) (hc : SigScheme cr) (seed : Str) (hl : seed.length = 32)
    (chHex ch : Str) (hd : hexDecode chHex = some ch) (hch : ch.length = 32) :
    ∃ sig, signCryptoSign cr chHex seed = some sig ∧ verifyCryptoSign cr sig (cr.pubOfSeed seed) = some true := by
  refine ⟨_, by simp [signCryptoSign, hd]; rfl, ?_⟩
  have h := hexDecode_append (hexEncode (cr.sign seed ch)) chHex (hexDecode_encode _) hd
  have hs := hc.sig seed ch hl
  have hlen : (cr.sign seed ch ++ ch).length = 96 := by simp [hs, hch]
  simp [verifyCryptoSign, h, signOpen, hs, hch, copy32_of_length _ (hc.pub _ hl), hc.ok _ _ hl]

/-- The challenges the library generates are of that form. -/
example (r : Str) : hexDecode (cryptoSignChallenge r) = some r := hexDecode_encode r

theorem copy32_eq (b : Str) : copy32 b = (b ++ List.replicate 32 0).take 32 := by
  simp only [copy32, List.take_append, List.take_replicate]
  congr 2; omega

/-- **C27** The verification returns true exactly for hex strings of 96 bytes whose first 64 bytes are a valid signature,
under the given public key, of the last 32. (A key that does not have 32 bytes is cut off or filled up with zeros.) -/
theorem C27_cryptosign_soundness (cr : Crypto) (signature pub : Str) :
    verifyCryptoSign cr signature pub = some true ↔
      ∃ sig msg, hexDecode signature = some (sig ++ msg) ∧ sig.length = 64 ∧ msg.length = 32 ∧
        cr.verify ((pub ++ List.replicate 32 0).take 32) msg sig = true := by
  unfold verifyCryptoSign
  rw [copy32_eq]
  cases h : hexDecode signature with
  | none => simp
  | some sb =>
    simp only [Option.some.injEq]
    constructor
    · intro h
      split at h
      · cases h
      · next hl =>
        have hl : sb.length = 96 := by omega
        injection h with h
        simp only [signOpen] at h
        split at h
        · omega
        · exact ⟨sb.take 64, sb.drop 64, by simp, by simp [hl], by simp [hl], h⟩
    · rintro ⟨sig, msg, rfl, h1, h2, h3⟩
      have e1 : (sig ++ msg).drop 64 = msg := by rw [← h1]; exact List.drop_left
      have e2 : (sig ++ msg).take 64 = sig := by rw [← h1]; exact List.take_left
      simp only [signOpen, e1, e2, h3]
      simp [h1, h2]

/-- For a key of 32 bytes this is the key itself. -/
example (pub : Str) (h : pub.length = 32) : (pub ++ List.replicate 32 0).take 32 = pub := by
  rw [← copy32_eq, copy32_of_length _ h]

/-- **C28** (refuted) With an empty proposal the anonymous method is selected although the server does not allow it. -/
theorem C28_anonymous_not_allowed : selectAuthMethod [mTicket] [] = some mAnonymous ∧ mAnonymous ∉ [mTicket] := by
  decide

/-- **C28** (partial) For every non-empty proposal without the empty string: the method selected is the first proposed
one that the server allows, and selection fails exactly when none is allowed. Missing: the empty proposal, for which
`anonymous` is selected regardless. -/
theorem C28_select_partial (allowed proposed : List Str) (hne : proposed ≠ []) (he : [] ∉ proposed) :
    (∀ m, selectAuthMethod allowed proposed = some m ↔
      m ∈ allowed ∧ ∃ before after, proposed = before ++ m :: after ∧ ∀ x ∈ before, x ∉ allowed) ∧
    (selectAuthMethod allowed proposed = none ↔ ∀ x ∈ proposed, x ∉ allowed) := by
  have hl : ¬ proposed.length = 0 := by simpa using hne
  have key : selectAuthMethod allowed proposed = proposed.find? (fun p => allowed.contains p) := by
    unfold selectAuthMethod
    rw [if_neg hl]
    cases hf : proposed.find? (fun p => allowed.contains p) with
    | none => rfl
    | some m =>
      have := List.mem_of_find?_eq_some hf
      have hm : m ≠ [] := by rintro rfl; exact he this
      simp [hm]
  constructor
  · intro m
    rw [key, List.find?_eq_some_iff_append]
    simp
  · rw [key, List.find?_eq_none]; simp

example : selectAuthMethod [mCRA, mTicket] [mCryptoSign, mTicket, mCRA] = some mTicket := by decide

/-- Selection of the anonymous method for the empty proposal, for all servers. -/
theorem select_empty (allowed : List Str) : selectAuthMethod allowed [] = some mAnonymous := rfl

/-- **C29** (refuted) A private key of the wrong length crashes the constructor, and a `pubkey` that is not a string is
left in place. -/
theorem C29_wrong_length_crashes (cr : Crypto) (id raw : Str) (ex : GoMap) (h : raw.length ≠ 32) :
    newCryptoSign cr id (hexEncode raw) ex = .panic := by
  simp [newCryptoSign, hexDecode_encode, h]

theorem C29_non_string_pubkey_kept (cr : Crypto) (id raw : Str) (h : raw.length = 32) :
    ∃ a, newCryptoSign cr id (hexEncode raw) (some [(str "pubkey", .u64 7)]) = .ok a ∧
      a.authExtra.get (str "pubkey") = some (.u64 7) := by
  refine ⟨.cryptosign id (some [(str "pubkey", .u64 7)]) raw, ?_, rfl⟩
  simp only [newCryptoSign, hexDecode_encode, h]
  rfl

example : ([1, 2, 3] : Str).length ≠ 32 := by decide

/-- **C29** (partial) For every key string and auth extra: it crashes exactly when the key is hex of another length than 32
bytes; and when it succeeds, the authenticator signs with that key, and a string `pubkey` in its auth extra is the hex
public key of that key; if there was none, it has been added. Missing: non-string values of `pubkey` are kept. -/
theorem C29_cryptosign_partial (cr : Crypto) (id key : Str) (ex : GoMap) :
    (newCryptoSign cr id key ex = .panic ↔ ∃ raw, hexDecode key = some raw ∧ raw.length ≠ 32) ∧
    (∀ a, newCryptoSign cr id key ex = .ok a →
      ∃ seed, hexDecode key = some seed ∧ seed.length = 32 ∧ a = .cryptosign id a.authExtra seed ∧
        (∀ s, a.authExtra.get (str "pubkey") = some (.str s) → s = hexEncode (cr.pubOfSeed seed)) ∧
        (ex.get (str "pubkey") = none → a.authExtra.get (str "pubkey") = some (.str (hexEncode (cr.pubOfSeed seed)))) ∧
        (∀ k, k ≠ str "pubkey" → a.authExtra.get k = ex.get k)) := by
  have hget : ∀ k, dget (ex.getD []) k = ex.get k := by cases ex <;> intro k <;> rfl
  cases hd : hexDecode key with
  | none => simp [newCryptoSign, hd]
  | some raw =>
    by_cases hl : raw.length = 32
    · simp only [newCryptoSign, hd, hl, ne_eq, not_true, if_false, hget]
      cases hv : ex.get (str "pubkey") with
      | none =>
        simp only [Option.getD_none]
        refine ⟨by simp [hl], ?_⟩
        rintro a h
        cases h
        refine ⟨raw, rfl, hl, rfl, ?_, ?_, ?_⟩
        · intro s h; simp [ClientAuth.authExtra, GoMap.get, dget_dset_same] at h; exact h.symm
        · intro _; simp [ClientAuth.authExtra, GoMap.get, dget_dset_same]
        · intro k hk; simp [ClientAuth.authExtra, GoMap.get, dget_dset_other _ _ hk, hget]
      | some v =>
        have hget' : ∀ k, GoMap.get (some (ex.getD [])) k = ex.get k := hget
        cases v
        case nil =>
          simp only [Option.getD_some]
          refine ⟨by simp [hl], ?_⟩
          rintro a h
          cases h
          refine ⟨raw, rfl, hl, rfl, ?_, ?_, ?_⟩
          · intro s h; simp [ClientAuth.authExtra, GoMap.get, dget_dset_same] at h; exact h.symm
          · intro h; cases h
          · intro k hk; simp [ClientAuth.authExtra, GoMap.get, dget_dset_other _ _ hk, hget]
        case str val =>
          simp only [Option.getD_some]
          by_cases he : val = hexEncode (cr.pubOfSeed raw)
          · simp only [he, not_true, if_false]
            refine ⟨by simp [hl], ?_⟩
            rintro a h
            cases h
            refine ⟨raw, rfl, hl, rfl, ?_, by simp, ?_⟩
            · intro s h
              simp only [ClientAuth.authExtra, hget', hv, Option.some.injEq, Val.str.injEq] at h
              rw [← h, he]
            · intro k _; simp [ClientAuth.authExtra, hget']
          · simp [he, hl]
        all_goals
          simp only [Option.getD_some]
          refine ⟨by simp [hl], ?_⟩
          rintro a h
          cases h
          refine ⟨raw, rfl, hl, rfl, ?_, by simp, ?_⟩
          · intro s h
            simp [ClientAuth.authExtra, hget', hv] at h
          · intro k _; simp [ClientAuth.authExtra, hget']
    · simp [newCryptoSign, hd, hl]

end Wamp
