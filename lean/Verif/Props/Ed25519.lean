import Verif.Spec.Ed25519
import Verif.Props.Auth
/-!
# CryptoSign with the real Ed25519 (C170, C171)
-/
namespace Wamp.Ed25519

set_option maxRecDepth 100000
attribute [local irreducible] sha512 powMod Point.mul Point.encode decode sign verify pubOfSeed

theorem leBytes_length (n x : Nat) : (leBytes n x).length = n := by
  induction n generalizing x with
  | zero => rfl
  | succ n ih => simp [leBytes, ih]

theorem encode_length (q : Point) : q.encode.length = 32 := by unfold Point.encode; exact leBytes_length _ _

theorem leNum_leBytes (n x : Nat) (h : x < 256 ^ n) : leNum (leBytes n x) = x := by
  induction n generalizing x with
  | zero => simp only [Nat.pow_zero] at h; simp only [leBytes, leNum]; omega
  | succ n ih =>
    have hb : (UInt8.ofNat x).toNat = x % 256 := by simp
    simp only [leBytes, leNum, hb]
    rw [ih (x / 256) (by rw [Nat.div_lt_iff_lt_mul (by decide)]; rwa [Nat.pow_succ] at h)]
    omega

theorem real_sign : real.sign = sign := rfl
theorem real_verify : real.verify = verify := rfl
theorem real_pub : real.pubOfSeed = pubOfSeed := rfl

/-! ### C170 -/

/-- **C170.** Public keys have 32 bytes and signatures 64. -/
theorem C170_sizes (seed m : Str) : (pubOfSeed seed).length = 32 ∧ (sign seed m).length = 64 := by
  refine ⟨by unfold pubOfSeed; exact encode_length _, ?_⟩
  unfold sign
  simp only [List.length_append, encode_length, leBytes_length]

theorem signed_hex (ch r seed : Str) (h : hexDecode ch = some r) : signCryptoSign real ch seed = some (hexEncode (sign seed r) ++ ch) := by
  unfold signCryptoSign
  rw [h, real_sign]

theorem verify_length (r sig b pub : Str) (hd : hexDecode sig = some b) (hl : b.length = 64 + r.length) :
    verifyCryptoSign real sig pub = none ↔ r.length ≠ 32 := by
  unfold verifyCryptoSign
  rw [hd]
  by_cases h32 : r.length = 32
  · simp only [hl, h32, ne_eq, not_true_eq_false, if_false, reduceCtorEq]
  · have : ¬64 + r.length = 96 := by omega
    simp only [hl, h32, this, ne_eq, not_false_eq_true, if_true]

theorem signed_length (seed r : Str) : (sign seed r ++ r).length = 64 + r.length := by rw [List.length_append, (C170_sizes seed r).2]

/-- **C170.** The answer to a challenge of `n` bytes is hex text of `64 + n` bytes, at whose end is the challenge; exactly for a challenge of 32 bytes
it is not refused for its length. -/
theorem C170_answer (ch r : Str) (h : hexDecode ch = some r) (seed : Str) : ∃ sig, signCryptoSign real ch seed = some sig ∧
    hexDecode sig = some (sign seed r ++ r) ∧ (∀ pub, verifyCryptoSign real sig pub = none ↔ r.length ≠ 32) :=
  have hd := hexDecode_append (hexEncode (sign seed r)) ch (hexDecode_encode _) h
  ⟨hexEncode (sign seed r) ++ ch, signed_hex ch r seed h, hd, fun pub => verify_length r _ _ pub hd (signed_length seed r)⟩

/-- **C170.** A signature is accepted only if its second half, as a number, is less than the order of the base point; so the usual way to make a
second signature from a first one, adding the order, fails. -/
theorem C170_canonical (pub m R S : Str) (hR : R.length = 32) (h : verify pub m (R ++ S) = true) :
    S.length = 32 ∧ leNum S < L ∧ verify pub m (R ++ leBytes 32 (leNum S + L)) = false := by
  have hd : (R ++ S).drop 32 = S := by rw [← hR, List.drop_left]
  unfold verify at h
  split at h
  · cases h
  · rename_i hl
    split at h
    · cases h
    · simp only [hd] at h
      split at h
      · rename_i hlt
        refine ⟨by simp only [List.length_append, hR, ne_eq, Decidable.not_not] at hl; omega, hlt, ?_⟩
        have hd' : (R ++ leBytes 32 (leNum S + L)).drop 32 = leBytes 32 (leNum S + L) := by rw [← hR, List.drop_left]
        have hb : leNum S + L < 256 ^ 32 := by
          have : L + L ≤ 256 ^ 32 := by decide +kernel
          omega
        unfold verify
        split
        · rfl
        · split
          · rfl
          · simp only [hd', leNum_leBytes _ _ hb]
            rw [if_neg (by omega)]
      · cases h

/-- **C170.** What C26 and C42 assume of Ed25519 is true if only honest signatures verify. -/
theorem C170_scheme (h : ∀ seed m, seed.length = 32 → verify (pubOfSeed seed) m (sign seed m) = true) : SigScheme real :=
  ⟨fun s _ => by rw [real_pub]; exact (C170_sizes s []).1, fun s m _ => by rw [real_sign]; exact (C170_sizes s m).2,
    fun s m hs => by rw [real_pub, real_sign, real_verify]; exact h s m hs⟩

/-- The bytes written as hex digits. -/
private def hex (s : String) : Str := (hexDecode (str s)).getD []

/-- A key pair and a challenge (those of auth/cryptosign_test.go): the honest signature is accepted, for another challenge it is not. -/
example : sign (hex "022b089bed5ab78808365e82dd12c796c835aeb98b4a5a9e099d3e72cb719516") (hex "5c7b195948a15a9f94bdc31cf6d88294e380985e2c40f5f912fd707e080cb5ff") =
    hex "aef37266d7f6426d56ff75de15413b721ac0086012e4934964693903ddacd8347102c722f3b2834daa67ee443c9a511e42ceb3d4af0d2675945bb365fbbd4808" := by
  decide +kernel
example : verify (hex "2b7ec216daa877c7f4c9439db8a722ea2340eacad506988db2564e258284f895") (hex "5c7b195948a15a9f94bdc31cf6d88294e380985e2c40f5f912fd707e080cb5ff")
    (hex "aef37266d7f6426d56ff75de15413b721ac0086012e4934964693903ddacd8347102c722f3b2834daa67ee443c9a511e42ceb3d4af0d2675945bb365fbbd4808") = true := by
  decide +kernel
example : verify (hex "2b7ec216daa877c7f4c9439db8a722ea2340eacad506988db2564e258284f895") (hex "5c7b195948a15a9f94bdc31cf6d88294e380985e2c40f5f912fd707e080cb500")
    (hex "aef37266d7f6426d56ff75de15413b721ac0086012e4934964693903ddacd8347102c722f3b2834daa67ee443c9a511e42ceb3d4af0d2675945bb365fbbd4808") = false := by
  decide +kernel

/-! ### The neutral element -/

theorem powMod_eq (n b e : Nat) (h : e < 2 ^ n) : powMod n b e = b ^ e % p := by
  induction n generalizing b e with
  | zero =>
    have : e = 0 := by simpa using h
    subst this; unfold powMod; rfl
  | succ n ih =>
    have he : e / 2 < 2 ^ n := by rw [Nat.div_lt_iff_lt_mul (by decide)]; rwa [Nat.pow_succ] at h
    have hp : (b * b % p) ^ (e / 2) % p = b ^ (2 * (e / 2)) % p := by
      rw [← Nat.pow_mod, Nat.pow_mul, Nat.pow_two]
    unfold powMod
    rw [ih _ _ he, hp]
    split
    · rename_i h1
      rw [Nat.mul_mod_mod, ← Nat.pow_succ', show (2 * (e / 2)).succ = e by omega]
    · rw [show 2 * (e / 2) = e by omega]

theorem p_pos : 2 < p := by decide +kernel

theorem fermat : 2 ^ (p - 1) % p = 1 := by
  rw [← powMod_eq 255 2 (p - 1) (by decide +kernel)]
  decide +kernel

/-- The neutral element in one of the forms it takes in calculations. -/
def Neutral (q : Point) : Prop := ∃ n, q = ⟨0, 2 ^ n % p, 2 ^ n % p, 0⟩

theorem add_neutral {q r : Point} (hq : Neutral q) (hr : Neutral r) : Neutral (q.add r) := by
  obtain ⟨a, rfl⟩ := hq
  obtain ⟨b, rfl⟩ := hr
  refine ⟨2 + 2 * a + 2 * b, ?_⟩
  have e1 : (2 ^ a % p + p - 0) * (2 ^ b % p + p - 0) % p = 2 ^ (a + b) % p := by
    rw [Nat.sub_zero, Nat.sub_zero, Nat.mul_mod, Nat.add_mod_right, Nat.add_mod_right, Nat.mod_mod, Nat.mod_mod, ← Nat.mul_mod, Nat.pow_add]
  have e2 : (2 ^ a % p + 0) * (2 ^ b % p + 0) % p = 2 ^ (a + b) % p := by
    rw [Nat.add_zero, Nat.add_zero, ← Nat.mul_mod, Nat.pow_add]
  have e3 : 2 ^ a % p * 2 * (2 ^ b % p) % p = 2 ^ (a + b + 1) % p := by
    rw [Nat.mul_mod_mod, Nat.mul_assoc, Nat.mod_mul_mod, ← Nat.pow_succ', ← Nat.pow_add, show a + b.succ = a + b + 1 by omega]
  have e4 : (2 ^ (a + b) % p + 2 ^ (a + b) % p) % p = 2 ^ (a + b + 1) % p := by
    rw [← Nat.add_mod, Nat.pow_succ, Nat.mul_two]
  have e5 : 2 ^ (a + b + 1) % p * (2 ^ (a + b + 1) % p) % p = 2 ^ (2 + 2 * a + 2 * b) % p := by
    rw [← Nat.mul_mod, ← Nat.pow_add, show a + b + 1 + (a + b + 1) = 2 + 2 * a + 2 * b by omega]
  have e6 : (2 ^ (a + b) % p + p - 2 ^ (a + b) % p) % p = 0 := by rw [Nat.add_sub_cancel_left, Nat.mod_self]
  unfold Point.add
  simp only [e1, e2, e3]
  simp only [e4, e6, Nat.zero_mul, Nat.mul_zero, Nat.zero_mod, Nat.sub_zero, Nat.add_zero, Nat.add_mod_right, Nat.mod_mod, e5]

theorem zero_neutral : Neutral .zero := ⟨0, by rw [Nat.pow_zero, Nat.mod_eq_of_lt (by have := p_pos; omega)]; rfl⟩

theorem mul_neutral (n k : Nat) {q : Point} (hq : Neutral q) : Neutral (Point.mul n k q) := by
  induction n generalizing k q with
  | zero => unfold Point.mul; exact zero_neutral
  | succ n ih =>
    unfold Point.mul
    split
    · exact add_neutral hq (ih _ (add_neutral hq hq))
    · exact ih _ (add_neutral hq hq)

theorem mul_zero (n : Nat) (q : Point) : Point.mul n 0 q = .zero := by
  induction n generalizing q with
  | zero => unfold Point.mul; rfl
  | succ n ih => unfold Point.mul; rw [if_neg (by decide)]; exact ih _

theorem encode_neutral {q : Point} (hq : Neutral q) : q.encode = one := by
  obtain ⟨n, rfl⟩ := hq
  unfold Point.encode
  have e : 2 ^ n % p * powMod 255 (2 ^ n % p) (p - 2) % p = 1 := by
    have hp := p_pos
    rw [powMod_eq _ _ _ (by decide +kernel), ← Nat.pow_mod, ← Nat.mul_mod, ← Nat.pow_succ', show (p - 2).succ = p - 1 by omega, ← Nat.pow_mul,
      Nat.mul_comm, Nat.pow_mul, Nat.pow_mod, fermat, Nat.one_pow, Nat.mod_eq_of_lt (by omega)]
  simp only [e, Nat.zero_mul, Nat.zero_mod, Nat.add_zero]
  decide +kernel

theorem decode_one : decode one = some .zero := by decide +kernel

/-! ### C171 -/

/-- **C171.** Under the public key `one` the same 64 bytes are a valid signature of every message. -/
theorem C171_verify (m : Str) : verify one m nobody = true := by
  have h1 : nobody.take 32 = one := by decide +kernel
  have h2 : leNum (nobody.drop 32) = 0 := by decide +kernel
  have h3 : 0 < L := by decide +kernel
  have h4 : nobody.length = 64 := by decide +kernel
  have h5 : Neutral (Point.neg .zero) := by
    have : Point.neg .zero = .zero := by unfold Point.neg Point.zero; simp only [Nat.sub_zero, Nat.mod_self]
    rw [this]; exact zero_neutral
  unfold verify
  rw [if_neg (by rw [h4]; decide), decode_one]
  simp only [h1, h2, if_pos h3, mul_zero]
  rw [encode_neutral (add_neutral (mul_neutral _ _ h5) zero_neutral)]
  exact beq_self_eq_true _

/-- **C171.** `VerifyCryptoSignSignature` accepts it for every challenge of 32 bytes; short public keys are filled up with zeros, so the single byte 1
is such a key, too. -/
theorem C171_anybody (ch r pub : Str) (h : hexDecode ch = some r) (hr : r.length = 32) (hp : ∃ n ≤ 31, pub = 1 :: List.replicate n 0) :
    verifyCryptoSign real (hexEncode nobody ++ ch) pub = some true := by
  obtain ⟨n, hn, rfl⟩ := hp
  have hk : ((1 :: List.replicate n 0 : Str) ++ List.replicate 32 0).take 32 = one := by
    rw [List.cons_append, List.replicate_append_replicate, List.take_succ_cons, List.take_replicate, show min 31 (n + 32) = 31 by omega]; rfl
  exact (C27_cryptosign_soundness real _ _).mpr
    ⟨nobody, r, hexDecode_append _ _ (hexDecode_encode _) h, by decide +kernel, hr, by rw [hk, real_verify]; exact C171_verify r⟩

theorem recv_authenticate (cr : Crypto) (env : Acceptor.Env) (s : Acceptor.State) (sig : Str) (ex : GoMap) (hs : s.st = .challengeSent) :
    Acceptor.recv cr env s (.authenticate sig ex) = Acceptor.recvAuthenticate cr env s sig ex := by
  unfold Acceptor.recv
  rw [if_neg (by rw [hs]; decide)]

/-- **C171.** A login without a private key: if the server's authenticator approves of the public key `01`, whoever answers the challenge with these
64 bytes is welcomed, whatever the challenge is. -/
theorem C171_login (env env' : Acceptor.Env) (static : Bool) (realm authID r : Str) (roles : GoMap) (resp : AuthResp) (ex : GoMap)
    (hm : mCryptoSign ∈ env.methods) (ha : ∀ q, env.authn q = .ok resp) (hr : r.length = 32) (hc : env.csChallenge = some (cryptoSignChallenge r)) :
    ∃ acceptor asked extra d, Acceptor.recv real env (Acceptor.init static)
        (.hello realm authID (some [mCryptoSign]) (some [(str "pubkey", .str (str "01"))]) roles) =
          ⟨acceptor, .ok (newChallenge mCryptoSign (some extra)), asked⟩ ∧
      extra = [(str "challenge", .str (cryptoSignChallenge r))] ∧
      (Acceptor.recv real env' acceptor (.authenticate (hexEncode nobody ++ cryptoSignChallenge r) ex)).res = .ok (.welcome env'.id d) := by
  have hsel : selectAuthMethod env.methods [mCryptoSign] = some mCryptoSign := by
    unfold selectAuthMethod
    have : env.methods.contains mCryptoSign = true := by simpa using hm
    simp only [List.length_singleton, List.find?, this]
    rfl
  have h1 : Acceptor.recv real env (Acceptor.init static) (.hello realm authID (some [mCryptoSign]) (some [(str "pubkey", .str (str "01"))]) roles) =
      ⟨{ static, st := .challengeSent, authMethod := mCryptoSign, hello := some ⟨realm, authID, some [(str "pubkey", .str (str "01"))]⟩,
         request := some (newCryptoSignRequest realm authID (some [(str "pubkey", .str (str "01"))]) (str "01")), response := some resp,
         challenge := cryptoSignChallenge r }, .ok (newChallenge mCryptoSign (some [(str "challenge", .str (cryptoSignChallenge r))])),
       some (newCryptoSignRequest realm authID (some [(str "pubkey", .str (str "01"))]) (str "01"), .ok resp)⟩ := by
    show Acceptor.recvHello env (Acceptor.init static) realm authID (some [mCryptoSign]) (some [(str "pubkey", .str (str "01"))]) = _
    unfold Acceptor.recvHello
    simp only [Option.getD_some, hsel, ha, hc]
    rfl
  refine ⟨_, _, _, some (Acceptor.welcomeDetails realm resp.authID resp.authRole mCryptoSign), h1, rfl, ?_⟩
  have hv : verifyCryptoSign real (hexEncode nobody ++ cryptoSignChallenge r) [1] = some true :=
    C171_anybody _ r [1] (hexDecode_encode r) hr ⟨0, by decide, rfl⟩
  have hx : hexDecode (str "01") = some [1] := by decide +kernel
  have n1 : mCryptoSign ≠ mTicket := by decide +kernel
  have n2 : mCryptoSign ≠ mCRA := by decide +kernel
  rw [recv_authenticate _ _ _ _ _ rfl]
  unfold Acceptor.recvAuthenticate
  simp only [if_neg n1, if_neg n2, ne_eq, not_true_eq_false, if_false, if_true, Option.bind_some, newCryptoSignRequest, hx, hv, Option.getD_some]
  rfl

/-- An authenticator that approves of everybody, and a challenge. -/
example : ∃ env : Acceptor.Env, mCryptoSign ∈ env.methods ∧ (∀ q, env.authn q = .ok ⟨str "joe", str "admin", none⟩) ∧
    env.csChallenge = some (cryptoSignChallenge (List.replicate 32 7)) ∧ (List.replicate 32 7 : Str).length = 32 :=
  ⟨⟨[mCryptoSign], fun _ => .ok ⟨str "joe", str "admin", none⟩, 7, none, some (cryptoSignChallenge (List.replicate 32 7))⟩,
    by decide, fun _ => rfl, rfl, rfl⟩

end Wamp.Ed25519
