import Verif.Props.Login
import Verif.Props.Auth
/-!
# C130: generated key pairs
-/
namespace Wamp
open Wamp.Handshake Wamp.Spec

variable {cr : Crypto}

/-- Lower-case hex digits. -/
def isHex (s : Str) : Prop := ∀ b ∈ s, (48 ≤ b.toNat ∧ b.toNat ≤ 57) ∨ (97 ≤ b.toNat ∧ b.toNat ≤ 102)

theorem hexEncode_isHex (s : Str) : isHex (hexEncode s) := by
  have digit : ∀ n, n < 16 → (48 ≤ (hexDigit n).toNat ∧ (hexDigit n).toNat ≤ 57) ∨ (97 ≤ (hexDigit n).toNat ∧ (hexDigit n).toNat ≤ 102) := by decide
  induction s with
  | nil => exact fun _ h => nomatch h
  | cons b s ih =>
    have hb := UInt8.toNat_lt b
    intro x hx
    simp only [hexEncode, List.mem_cons] at hx
    rcases hx with rfl | rfl | hx
    · exact digit _ (by omega)
    · exact digit _ (by omega)
    · exact ih x hx

/-- **C130** Both keys are texts of 64 lower-case hex digits; and different seeds have different private keys. -/
theorem C130_keys (hc : SigScheme cr) {seed : Str} (hs : seed.length = 32) :
    isHex (cryptoSignKeyPair cr seed).1 ∧ isHex (cryptoSignKeyPair cr seed).2 ∧
    (cryptoSignKeyPair cr seed).1.length = 64 ∧ (cryptoSignKeyPair cr seed).2.length = 64 ∧
    ∀ seed', (cryptoSignKeyPair cr seed').2 = (cryptoSignKeyPair cr seed).2 → seed' = seed := by
  refine ⟨hexEncode_isHex _, hexEncode_isHex _, ?_, ?_, fun seed' h => ?_⟩
  · simp [cryptoSignKeyPair, hexEncode_length, hc.pub seed hs]
  · simp [cryptoSignKeyPair, hexEncode_length, hs]
  · have := congrArg hexDecode h
    simpa [cryptoSignKeyPair, hexDecode_encode] using this

/-- **C130** `NewCryptoSignAuthenticator` takes the generated private key.  If the authextra has no `pubkey`, the client sends the generated public
key; it takes that public key in the authextra too, and no other text. -/
theorem C130_client {seed : Str} (hs : seed.length = 32) (id : Str) (ex : GoMap) :
    (ex.get (str "pubkey") = none → ∃ ca, newCryptoSign cr id (cryptoSignKeyPair cr seed).2 ex = .ok ca ∧ ca.method = str "cryptosign" ∧ ca.authID = id ∧
      ca.authExtra.get (str "pubkey") = some (.str (cryptoSignKeyPair cr seed).1)) ∧
    (ex.get (str "pubkey") = some (.str (cryptoSignKeyPair cr seed).1) →
      ∃ ca, newCryptoSign cr id (cryptoSignKeyPair cr seed).2 ex = .ok ca ∧ ca.method = str "cryptosign" ∧ ca.authID = id ∧
      ca.authExtra.get (str "pubkey") = some (.str (cryptoSignKeyPair cr seed).1)) ∧
    ∀ other, ex.get (str "pubkey") = some (.str other) → other ≠ (cryptoSignKeyPair cr seed).1 →
      newCryptoSign cr id (cryptoSignKeyPair cr seed).2 ex = .err := by
  have hget : dget (ex.getD []) (str "pubkey") = ex.get (str "pubkey") := by cases ex <;> rfl
  refine ⟨fun h => ?_, fun h => ?_, fun other h hne => ?_⟩
  · refine ⟨.cryptosign id (some (dset (ex.getD []) (str "pubkey") (.str (hexEncode (cr.pubOfSeed seed))))) seed, ?_, rfl, rfl, ?_⟩
    · simp [newCryptoSign, cryptoSignKeyPair, hexDecode_encode, hs, hget, h]
    · simp [ClientAuth.authExtra, cryptoSignKeyPair, GoMap.get, dget_dset_same]
  · refine ⟨.cryptosign id (some (ex.getD [])) seed, ?_, rfl, rfl, ?_⟩
    · simp [newCryptoSign, cryptoSignKeyPair, hexDecode_encode, hs, hget, h]
    · rw [← h, ← hget]; rfl
  · have : other ≠ hexEncode (cr.pubOfSeed seed) := hne
    simp [newCryptoSign, cryptoSignKeyPair, hexDecode_encode, hs, hget, h, this]

/-- **C130** What a client with the generated private key answers to a challenge of 32 bytes verifies with the generated public key. -/
theorem C130_signature (hc : SigScheme cr) {seed : Str} (hs : seed.length = 32) {id : Str} {ex : GoMap} {ca : ClientAuth}
    (hca : newCryptoSign cr id (cryptoSignKeyPair cr seed).2 ex = .ok ca) {random : Str} (hr : random.length = 32) (extra : GoMap)
    (hx : extra.get (str "challenge") = some (.str (cryptoSignChallenge random))) :
    ∃ sig pub, ca.authenticate cr extra = .ok (sig, ca.authExtra) ∧ hexDecode (cryptoSignKeyPair cr seed).1 = some pub ∧
      verifyCryptoSign cr sig pub = some true := by
  obtain ⟨seed', h1, -, h2, -⟩ := (C29_cryptosign_partial cr id _ ex).2 ca hca
  rw [cryptoSignKeyPair, hexDecode_encode] at h1
  cases h1
  obtain ⟨sig, h3, h4⟩ := C26_cryptosign_completeness cr hc seed hs (cryptoSignChallenge random) random (hexDecode_encode _) hr
  refine ⟨sig, cr.pubOfSeed seed, ?_, hexDecode_encode _, h4⟩
  have htext : extra.text (str "challenge") = cryptoSignChallenge random := by
    simp [GoMap.text, hx, Val.asStr?]
  rw [h2]
  simp [ClientAuth.authenticate, ClientAuth.authExtra, htext, h3, Res.ofOption]

/-- **C130** A client with the generated private key, and nothing else in its authextra, logs in over CBOR, MsgPack and JSON, byte by byte, at a
router that allows CryptoSign and whose authenticator approves the generated public key; the router and the client then agree on the session. -/
theorem C130_login (hc : SigScheme cr) {seed : Str} (hs : seed.length = 32) {id : Str} {ca : ClientAuth}
    (hca : newCryptoSign cr id (cryptoSignKeyPair cr seed).2 none = .ok ca)
    (order : List (Str × Str) → List (Str × Str)) (horder : ∀ l, (order l).Perm l)
    (realm : Str) (static : Bool) (env1 env2 : Acceptor.Env) (r : AuthResp) (d : Draw) (hid1 : env1.id ≤ 2 ^ 53) (hid2 : env2.id ≤ 2 ^ 53)
    (hm : str "cryptosign" ∈ env1.methods)
    (happ : env1.authn ⟨str "cryptosign", realm, id, some [(str "pubkey", .str (cryptoSignKeyPair cr seed).1)],
      some (cryptoSignKeyPair cr seed).1, none⟩ = .ok r)
    {random : Str} (hr : random.length = 32) (hch : env1.csChallenge = some (cryptoSignChallenge random))
    (ho : Ordinary cr realm env1 r ca d) :
    ∀ c, c = Cbor.codec order ∨ c = MsgPack.codec order ∨ c = Json.codec →
    ∃ n, (n = env1.id ∨ n = env2.id) ∧
      Agree (login cr c (ca.toAuth cr) [env1, env2] realm static) n realm r.authID r.authRole (str "cryptosign") := by
  have h2 : ca = .cryptosign id (some [(str "pubkey", .str (hexEncode (cr.pubOfSeed seed)))]) seed := by
    have : newCryptoSign cr id (cryptoSignKeyPair cr seed).2 none =
        .ok (.cryptosign id (some [(str "pubkey", .str (hexEncode (cr.pubOfSeed seed)))]) seed) := by
      simp [newCryptoSign, cryptoSignKeyPair, hexDecode_encode, hs, dget, dset]
    rw [this] at hca
    exact (Res.ok.inj hca).symm
  have hmeth : ca.method = str "cryptosign" := by rw [h2]; rfl
  have ha : ∀ norm, (∀ s, norm (.str s) = .str s) → Approves cr norm realm env1 env2 r ca := by
    intro norm hn
    rw [h2]
    refine ⟨hs, by simp [GoMap.get, dget], ?_, random, hr, hch⟩
    have : seen norm (some [(str "pubkey", .str (hexEncode (cr.pubOfSeed seed)))]) = some [(str "pubkey", .str (hexEncode (cr.pubOfSeed seed)))] := by
      simp [seen, Spec.onDict, hn]
    rw [this]; exact happ
  have hx : ∀ F, Carrier F → ∀ k, F (k + 1) (.map (ca.authExtra.getD [])) := by
    intro F hF k
    rw [h2]
    refine hF.map k _ (by simp [ClientAuth.authExtra]) (by simp [ClientAuth.authExtra, Cbor.sortedKeys]) ?_
    intro p hp
    simp only [ClientAuth.authExtra, Option.getD_some, List.mem_singleton] at hp
    subst hp
    exact ⟨(by decide +kernel : Cbor.validUtf8 (str "pubkey") = true), (by decide +kernel : (str "pubkey").length < 2 ^ 32), hF.text k _ (Json.ascii_valid _ (Json.hexEncode_ascii _)) (by rw [hexEncode_length, hc.pub seed hs]; decide)⟩
  rintro c (rfl | rfl | rfl)
  · have := C42_cbor cr hc order horder realm static env1 env2 r ca d hid1 hid2 (by rw [hmeth]; exact hm) (ha cborWire fun s => by simp [cborWire, wire]) ho
      (hx _ cbor_carrier 29)
    rwa [hmeth] at this
  · have := C42_msgpack cr hc order horder realm static env1 env2 r ca d hid1 hid2 (by rw [hmeth]; exact hm) (ha msgpackWire fun s => by simp [msgpackWire, wire]) ho
      (hx _ msgpack_carrier 0)
    rwa [hmeth] at this
  · have := C42_json cr hc realm static env1 env2 r ca d hid1 hid2 (by rw [hmeth]; exact hm) (ha jsonWire fun s => by simp [jsonWire, wire]) ho
      (hx _ (json_carrier) 9997)
    rwa [hmeth] at this

/-! ### Cases that meet the hypotheses -/

namespace KeyPair
def seed : Str := List.replicate 32 7
def pair := cryptoSignKeyPair Demo2.cr seed
def client : ClientAuth := .cryptosign (str "joe") (some [(str "pubkey", .str pair.1)]) seed
def resp : AuthResp := ⟨str "joe", str "user", none⟩
def env : Acceptor.Env := ⟨[str "cryptosign"], fun r => if r.publicKey = some pair.1 then .ok resp else .err [], 77, none,
  some (cryptoSignChallenge (List.replicate 32 9))⟩
end KeyPair

example : SigScheme Demo2.cr ∧ KeyPair.seed.length = 32 ∧
    newCryptoSign Demo2.cr (str "joe") KeyPair.pair.2 none = .ok KeyPair.client := by
  refine ⟨⟨fun s h => h, fun s _ h => by simp [Demo2.cr, Demo.cr, h], fun s _ _ => by simp [Demo2.cr, Demo.cr]⟩, by decide, ?_⟩
  simp [newCryptoSign, KeyPair.pair, cryptoSignKeyPair, hexDecode_encode, KeyPair.seed, dget, dset, KeyPair.client]

example : Ordinary Demo2.cr (str "realm1") KeyPair.env KeyPair.resp KeyPair.client ⟨none, 1, ⟨2024, 5, 9, 23, 4, 0, 3600⟩⟩ where
  realm := ⟨by decide +kernel, by decide +kernel⟩
  authID := ⟨by decide +kernel, by decide +kernel⟩
  ticket := by intro i e t h; cases h
  approvedID := ⟨by decide +kernel, by decide +kernel⟩
  approvedRole := ⟨by decide +kernel, by decide +kernel⟩
  salt := by intro info h; cases h
  challenge := rfl
  nonce := by intro b h; cases h
  session := by decide
  clock := by unfold Clock.sane; decide
  mac := by intro k m; simp [Demo2.cr]

end Wamp
