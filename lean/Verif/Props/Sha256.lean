import Verif.Spec.Sha256
import Verif.Props.Auth
/-!
# WAMP-CRA with the real HMAC-SHA256 and PBKDF2 (C168, C169)
-/
namespace Wamp.Sha256

set_option maxRecDepth 100000

/-! ### The hash -/

theorem bytes_length (n x : Nat) : (bytes n x).length = n := by
  induction n generalizing x with
  | zero => rfl
  | succ n ih => simp [bytes, ih]

theorem padding_length (n : Nat) : (n + (padding n).length) % 64 = 0 := by
  simp only [padding, List.length_append, List.length_cons, List.length_replicate, bytes_length]
  omega

theorem padding_short (n : Nat) : (padding n).length ≤ 72 := by
  simp only [padding, List.length_append, List.length_cons, List.length_replicate, bytes_length]
  omega

theorem blocks_whole (n : Nat) (m : Str) (h : m.length % 64 = 0) (hn : m.length ≤ 64 * n) :
    (blocks n m).flatten = m ∧ ∀ b ∈ blocks n m, b.length = 64 := by
  induction n generalizing m with
  | zero =>
    have : m = [] := List.eq_nil_of_length_eq_zero (by omega)
    subst this
    exact ⟨rfl, fun b hb => by cases hb⟩
  | succ n ih =>
    unfold blocks
    split
    · rename_i e; subst e; exact ⟨rfl, fun b hb => by cases hb⟩
    · rename_i e
      have hp : 0 < m.length := List.length_pos_iff.mpr e
      obtain ⟨h1, h2⟩ := ih (m.drop 64) (by rw [List.length_drop]; omega) (by rw [List.length_drop]; omega)
      refine ⟨by rw [List.flatten_cons, h1, List.take_append_drop], fun b hb => ?_⟩
      rcases List.mem_cons.mp hb with rfl | hb
      · rw [List.length_take]; omega
      · exact h2 b hb

/-- Nothing of a message is left out: its blocks are the message and the padding, and all are whole. -/
theorem sha256_blocks (m : Str) : (blocks (m.length / 64 + 2) (m ++ padding m.length)).flatten = m ++ padding m.length ∧
    ∀ b ∈ blocks (m.length / 64 + 2) (m ++ padding m.length), b.length = 64 := by
  have := padding_length m.length
  have := padding_short m.length
  exact blocks_whole _ _ (by rw [List.length_append]; omega) (by rw [List.length_append]; omega)

theorem round_length {s : List Nat} (kw : Nat) (h : s.length = 8) : (round s kw).length = 8 := by
  unfold round
  split
  · rfl
  · exact h

theorem rounds_length (kws : List Nat) {s : List Nat} (h : s.length = 8) : (kws.foldl round s).length = 8 := by
  induction kws generalizing s with
  | nil => exact h
  | cons k ks ih => exact ih (round_length k h)

theorem compress_length {s : List Nat} (b : Str) (h : s.length = 8) : (compress s b).length = 8 := by
  unfold compress
  rw [List.length_zipWith, rounds_length _ h, h]
  rfl

theorem compressAll_length (bs : List Str) {s : List Nat} (h : s.length = 8) : (bs.foldl compress s).length = 8 := by
  induction bs generalizing s with
  | nil => exact h
  | cons b bs ih => exact ih (compress_length b h)

theorem flatMap_length (l : List Nat) : (l.flatMap (bytes 4)).length = 4 * l.length := by
  induction l with
  | nil => rfl
  | cons x l ih => rw [List.flatMap_cons, List.length_append, ih, bytes_length, List.length_cons]; omega

theorem sha256_length (m : Str) : (sha256 m).length = 32 := by
  unfold sha256
  rw [flatMap_length, compressAll_length _ (by rfl)]

theorem hmac_length (k m : Str) : (hmac k m).length = 32 := sha256_length _

/-! ### The key block -/

theorem stripZeros_getD (s : Str) (i : Nat) : (stripZeros s).getD i 0 = s.getD i 0 := by
  induction s generalizing i with
  | nil => rfl
  | cons c r ih =>
    unfold stripZeros
    split
    · rename_i h
      cases i with
      | zero => simp [h.1]
      | succ i => have := ih i; rw [h.2] at this; simpa using this
    · cases i with
      | zero => rfl
      | succ i => simpa using ih i

theorem stripZeros_zero {s : Str} (h : ∀ i, s.getD i 0 = 0) : stripZeros s = [] := by
  induction s with
  | nil => rfl
  | cons c r ih =>
    unfold stripZeros
    rw [if_pos ⟨by simpa using h 0, ih fun i => by simpa using h (i + 1)⟩]

theorem stripZeros_ext {s t : Str} (h : ∀ i, s.getD i 0 = t.getD i 0) : stripZeros s = stripZeros t := by
  induction s generalizing t with
  | nil => exact (stripZeros_zero fun i => by rw [← h i]; rfl).symm
  | cons c r ih =>
    cases t with
    | nil => exact stripZeros_zero fun i => by rw [h i]; rfl
    | cons d u =>
      have h0 : c = d := by simpa using h 0
      have h1 : stripZeros r = stripZeros u := ih fun i => by simpa using h (i + 1)
      simp only [stripZeros, h0, h1]

theorem stripZeros_length (s : Str) : (stripZeros s).length ≤ s.length := by
  induction s with
  | nil => exact Nat.le_refl _
  | cons c r ih =>
    unfold stripZeros
    split
    · exact Nat.zero_le _
    · simpa using ih

theorem effective_length (k : Str) : (effective k).length ≤ 64 := by
  unfold effective
  split
  · exact Nat.le_trans (stripZeros_length _) (by assumption)
  · exact Nat.le_trans (stripZeros_length _) (by rw [sha256_length]; decide)

theorem stripZeros_idem (s : Str) : stripZeros (stripZeros s) = stripZeros s := stripZeros_ext (stripZeros_getD s)

theorem masked_length (x : UInt8) (k : Str) : (masked x k).length = 64 := by simp [masked]

theorem fill_masked (x : UInt8) (k : Str) (h : k.length ≤ 64) :
    (k ++ List.replicate (64 - k.length) 0).map (· ^^^ x) = (List.range 64).map fun i => (stripZeros k).getD i 0 ^^^ x := by
  apply List.ext_getElem
  · simp; omega
  · intro i h1 h2
    simp only [List.getElem_map, List.getElem_range, stripZeros_getD]
    congr 1
    rw [List.getElem_append]
    split
    · rename_i hi; rw [List.getD_eq_getElem?_getD, List.getElem?_eq_getElem hi, Option.getD_some]
    · rename_i hi; rw [List.getElem_replicate, List.getD_eq_getElem?_getD, List.getElem?_eq_none (by omega), Option.getD_none]

theorem keyBlock_masked (x : UInt8) (k : Str) : (keyBlock k).map (· ^^^ x) = masked x k := by
  unfold keyBlock masked effective
  by_cases h : k.length ≤ 64
  · rw [if_neg (by omega : ¬k.length > 64), if_pos h]
    exact fill_masked x k h
  · rw [if_pos (by omega : k.length > 64), if_neg h]
    exact fill_masked x _ (by rw [sha256_length]; decide)

theorem hmac_outer (k m : Str) : hmac k m = sha256 (outer k m) := by
  unfold hmac outer inner
  rw [keyBlock_masked, keyBlock_masked]

theorem xor_right {x y z : UInt8} (h : x ^^^ z = y ^^^ z) : x = y := by
  have := congrArg (· ^^^ z) h
  simpa [UInt8.xor_assoc] using this

theorem masked_inj {x : UInt8} {a b : Str} (h : masked x a = masked x b) : effective a = effective b := by
  have e : stripZeros (effective a) = stripZeros (effective b) := stripZeros_ext fun i => by
    by_cases hi : i < 64
    · have := congrArg (fun l => l[i]?) h
      simp only [masked, List.getElem?_map, List.getElem?_range hi, Option.map_some, Option.some.injEq] at this
      exact xor_right this
    · have ha := effective_length a
      have hb := effective_length b
      rw [List.getD_eq_getElem?_getD, List.getD_eq_getElem?_getD, List.getElem?_eq_none (by omega), List.getElem?_eq_none (by omega)]
  unfold effective at e ⊢
  rwa [stripZeros_idem, stripZeros_idem] at e

theorem hmac_same {a b : Str} (h : effective a = effective b) : hmac a = hmac b := by
  funext m
  rw [hmac_outer, hmac_outer]
  unfold outer inner masked
  rw [h]

/-! ### PBKDF2 -/

theorem stretch_length (p : Str) (n : Nat) (t u : Str) (h : t.length = 32) : (stretch p n t u).length = 32 := by
  induction n generalizing t u with
  | zero => exact h
  | succ n ih => exact ih _ _ (by rw [List.length_zipWith, h, hmac_length]; rfl)

theorem kdfBlock_length (p s : Str) (it : Int) (i : Nat) : (kdfBlock p s it i).length = 32 := stretch_length _ _ _ _ (hmac_length _ _)

theorem kdf_length (p s : Str) (it : Int) (l : List Nat) : (l.map fun i => kdfBlock p s it (i + 1)).flatten.length = 32 * l.length := by
  induction l with
  | nil => rfl
  | cons x l ih => rw [List.map_cons, List.flatten_cons, List.length_append, ih, kdfBlock_length, List.length_cons]; omega

theorem pbkdf2_length (p s : Str) (it : Int) (n : Nat) : (pbkdf2 p s it n).length = n := by
  unfold pbkdf2
  rw [List.length_take, kdf_length, List.length_range]
  omega

theorem pbkdf2_take (p s : Str) (it : Int) {a b : Nat} (h : a ≤ b) : pbkdf2 p s it a = (pbkdf2 p s it b).take a := by
  unfold pbkdf2
  obtain ⟨d, hd⟩ : ∃ d, (b + 31) / 32 = (a + 31) / 32 + d := ⟨(b + 31) / 32 - (a + 31) / 32, by omega⟩
  rw [List.take_take, Nat.min_eq_left h, hd, List.range_add, List.map_append, List.flatten_append,
    List.take_append_of_le_length (by rw [kdf_length, List.length_range]; omega)]

theorem pbkdf2_few (p s : Str) (n : Nat) {it : Int} (h : it ≤ 1) : pbkdf2 p s it n = pbkdf2 p s 1 n := by
  unfold pbkdf2 kdfBlock
  rw [show (it - 1).toNat = 0 by omega]
  rfl

theorem stretch_same {a b : Str} (h : effective a = effective b) (n : Nat) (t u : Str) : stretch a n t u = stretch b n t u := by
  induction n generalizing t u with
  | zero => rfl
  | succ n ih => simp only [stretch, hmac_same h, ih]

theorem pbkdf2_same {a b : Str} (h : effective a = effective b) : pbkdf2 a = pbkdf2 b := by
  funext s it n
  unfold pbkdf2 kdfBlock
  simp only [hmac_same h, stretch_same h]

theorem b64Encode_size (b : Str) : (b64Encode b).length = 4 * ((b.length + 2) / 3) := by
  induction b using b64Encode.induct with
  | case1 => rfl
  | case2 a => simp [b64Encode]
  | case3 a b => simp [b64Encode]
  | case4 a b c r ih => simp only [b64Encode, List.length_cons, ih]; omega

theorem b64Encode_append (x y : Str) (h : x.length % 3 = 0) : b64Encode (x ++ y) = b64Encode x ++ b64Encode y := by
  induction x using b64Encode.induct with
  | case1 => rfl
  | case2 a => simp at h
  | case3 a b => simp at h
  | case4 a b c r ih =>
    simp only [List.cons_append, b64Encode, ih (by simp only [List.length_cons] at h; omega)]

theorem b64Encode_two (b : Str) (h : b.length % 3 = 2) : (b64Encode b).getLast? = some 61 := by
  induction b using b64Encode.induct with
  | case1 => simp at h
  | case2 a => simp at h
  | case3 a b => rfl
  | case4 a b c r ih =>
    have := ih (by simp only [List.length_cons] at h; omega)
    simp only [b64Encode, List.getLast?_cons, this, Option.getD_some]

/-! ### C168 -/

/-- **C168.** A WAMP-CRA signature has 44 characters, the last of them `=`, and whatever is accepted as a signature stands for 32 bytes. -/
theorem C168_signature (cr : Crypto) (ch key sig : Str) : (signCRA (real cr) ch key).length = 44 ∧
    (signCRA (real cr) ch key).getLast? = some 61 ∧
    (verifyCRA (real cr) sig ch key = true → ∃ b, b64Decode sig = some b ∧ b.length = 32) := by
  have h : ((real cr).hmac key ch).length = 32 := hmac_length key ch
  refine ⟨?_, ?_, fun hv => ⟨_, (C24_cra_soundness _ sig ch key).mp hv, h⟩⟩
  · unfold signCRA signCRABytes; rw [b64Encode_size, h]
  · unfold signCRA signCRABytes; exact b64Encode_two _ (by rw [h])

/-- **C168.** A derived key is as long as the base64 text of as many bytes as were asked for, of 32 if none were. -/
theorem C168_derived (cr : Crypto) (salt secret : Str) (it : Int) (n : Nat) :
    ∃ k, deriveCRAKey (real cr) salt secret it n = .ok k ∧ k.length = 4 * (((if n = 0 then 32 else n) + 2) / 3) := by
  unfold deriveCRAKey
  by_cases h : n = 0
  · subst h
    exact ⟨_, rfl, by rw [b64Encode_size]; erw [pbkdf2_length]; rfl⟩
  · have h' : (n : Int) ≠ 0 := by omega
    simp only [if_neg h', if_neg (by omega : ¬(n : Int) < 0), if_neg h]
    exact ⟨_, rfl, by rw [b64Encode_size]; erw [pbkdf2_length]; rfl⟩

/-- **C168.** No iterations mean 1000, and fewer than none mean one. -/
theorem C168_iterations (cr : Crypto) (salt secret : Str) (it n : Int) :
    deriveCRAKey (real cr) salt secret 0 n = deriveCRAKey (real cr) salt secret 1000 n ∧
    (it < 0 → deriveCRAKey (real cr) salt secret it n = deriveCRAKey (real cr) salt secret 1 n) := by
  refine ⟨rfl, fun h => ?_⟩
  unfold deriveCRAKey
  have e : ∀ m, (real cr).pbkdf2 secret salt it m = (real cr).pbkdf2 secret salt 1 m := fun m => pbkdf2_few secret salt m (by omega)
  simp only [if_neg (by omega : it ≠ 0), e]
  rfl

/-- **C168.** A key of a multiple of three bytes is the beginning of every longer one. -/
theorem C168_shorter (cr : Crypto) (salt secret : Str) (it : Int) {a b : Nat} (h0 : 0 < a) (h3 : a % 3 = 0) (hab : a ≤ b) :
    ∃ k r, deriveCRAKey (real cr) salt secret it a = .ok k ∧ deriveCRAKey (real cr) salt secret it b = .ok (k ++ r) := by
  unfold deriveCRAKey
  simp only [if_neg (by omega : (a : Int) ≠ 0), if_neg (by omega : ¬(a : Int) < 0), if_neg (by omega : (b : Int) ≠ 0),
    if_neg (by omega : ¬(b : Int) < 0), Int.toNat_natCast]
  refine ⟨_, b64Encode (((real cr).pbkdf2 secret salt (if it = 0 then 1000 else it) b).drop a), rfl, ?_⟩
  have e : (real cr).pbkdf2 secret salt (if it = 0 then 1000 else it) a =
    ((real cr).pbkdf2 secret salt (if it = 0 then 1000 else it) b).take a := pbkdf2_take _ _ _ hab
  rw [e, ← b64Encode_append _ _ (by
    have : ((real cr).pbkdf2 secret salt (if it = 0 then 1000 else it) b).length = b := pbkdf2_length _ _ _ _
    rw [List.length_take, this, Nat.min_eq_left hab, h3]), List.take_append_drop]

/-- The signatures of two challenges differ; the first has 44 characters. -/
example : b64Encode (hmac (str "secret") (str "a")) ≠ b64Encode (hmac (str "secret") (str "b")) ∧
    (b64Encode (hmac (str "secret") (str "a"))).length = 44 := by decide +kernel
/-- Minus five iterations are one, and not two; a key of three bytes begins one of six. -/
example : let key : Int → Nat → Str := fun it n => b64Encode (pbkdf2 (str "secret") (str "salt") it n)
    key (-5) 6 = key 1 6 ∧ key 1 6 ≠ key 2 6 ∧ key 1 3 = (key 1 6).take 4 ∧ (key 1 6).length = 8 := by decide +kernel

/-! ### C169 -/

/-- **C169.** A signature made with secret `a` for challenge `ch` is accepted for challenge `ch'` with secret `b` exactly if the challenges are the
same and so are the secrets, as far as they matter — or if two different texts have the same SHA-256, namely those hashed for the two signatures.
Missing: that the secrets are the same (`C169_secrets_refuted`). -/
theorem C169_secrets_partial (cr : Crypto) (a b ch ch' : Str) : verifyCRA (real cr) (signCRA (real cr) ch a) ch' b = true ↔
    (effective a = effective b ∧ ch = ch') ∨ Collide (outer a ch) (outer b ch') ∨
      (masked 0x5c a = masked 0x5c b ∧ Collide (inner a ch) (inner b ch')) := by
  have e : verifyCRA (real cr) (signCRA (real cr) ch a) ch' b = true ↔ hmac a ch = hmac b ch' := by
    rw [C24_cra_soundness]
    unfold signCRA signCRABytes
    rw [(C22_hex_base64 _).2.1, Option.some.injEq]
    rfl
  rw [e, hmac_outer, hmac_outer]
  constructor
  · intro h
    by_cases ho : outer a ch = outer b ch'
    · have h1 := List.append_inj ho (by rw [masked_length, masked_length])
      by_cases hi : inner a ch = inner b ch'
      · exact .inl ⟨masked_inj h1.1, (List.append_inj hi (by rw [masked_length, masked_length])).2⟩
      · exact .inr (.inr ⟨h1.1, hi, h1.2⟩)
    · exact .inr (.inl ⟨ho, h⟩)
  · rintro (⟨h1, rfl⟩ | h | ⟨h1, h2⟩)
    · rw [← hmac_outer, ← hmac_outer, hmac_same h1]
    · exact h.2
    · unfold outer; rw [h1, h2.2]

/-- **C169.** Secrets that are the same as far as they matter are interchangeable: a client answers every challenge alike, and a server accepts
the same signatures and derives the same keys. -/
theorem C169_interchangeable (cr : Crypto) {a b : Str} (h : effective a = effective b) :
    (∀ ex extra, craAuthenticate (real cr) a ex extra = craAuthenticate (real cr) b ex extra) ∧
    (∀ sig ch, verifyCRA (real cr) sig ch a = verifyCRA (real cr) sig ch b) ∧
    ∀ salt it n, deriveCRAKey (real cr) salt a it n = deriveCRAKey (real cr) salt b it n := by
  have h1 : (real cr).hmac a = (real cr).hmac b := hmac_same h
  have h2 : (real cr).pbkdf2 a = (real cr).pbkdf2 b := pbkdf2_same h
  have h3 : ∀ salt it n, deriveCRAKey (real cr) salt a it n = deriveCRAKey (real cr) salt b it n := fun salt it n => by
    unfold deriveCRAKey; rw [h2]
  refine ⟨fun ex extra => ?_, fun sig ch => ?_, h3⟩
  · unfold craAuthenticate
    simp only [h3]
    split
    · rfl
    · simp only [Res.bind, signCRA, signCRABytes, h1]
  · unfold verifyCRA signCRABytes; rw [h1]

/-- **C169.** A login with WAMP-CRA: the client knows secret `a`, the server's authenticator gives secret `b`.  The client is welcomed exactly if the
secrets are the same, as far as they matter, or if two different texts have the same SHA-256. -/
theorem C169_login_partial (cr : Crypto) (env env' : Acceptor.Env) (static : Bool) (realm cid a b authID role ch : Str) (ex : GoMap)
    (hm : mCRA ∈ env.methods) (ha : ∀ q, env.authn q = .ok (newCRAResponse authID role b)) (hc : env.craChallenge = some ch) :
    isWelcome (login (real cr) env env' static realm (newCRA cid a ex)) ↔
      effective a = effective b ∨ Collide (outer a ch) (outer b ch) := by
  have key : isWelcome (login (real cr) env env' static realm (newCRA cid a ex)) ↔
      verifyCRA (real cr) (signCRA (real cr) ch a) ch b = true := by
    have hsel : selectAuthMethod env.methods [mCRA] = some mCRA := by
      unfold selectAuthMethod
      have : env.methods.contains mCRA = true := by simpa using hm
      simp only [List.length_singleton, List.find?, this]
      rfl
    have h1 : Acceptor.recv (real cr) env (Acceptor.init static) (Joiner.helloMsg ((newCRA cid a ex).toAuth (real cr)) { realm, static }) =
        ⟨{ static, st := .challengeSent, authMethod := mCRA, hello := some ⟨realm, cid, ex⟩, response := some (newCRAResponse authID role b),
           challenge := ch }, .ok (newChallenge mCRA (some [(str "challenge", .str ch)])),
         some (newRequest realm cid ex mCRA, .ok (newCRAResponse authID role b))⟩ := by
      show Acceptor.recvHello env (Acceptor.init static) realm cid (some [mCRA]) ex = _
      unfold Acceptor.recvHello
      simp only [Option.getD_some, hsel, ha, hc]
      rfl
    unfold login
    simp only [h1]
    have h2 : (Joiner.recv ((newCRA cid a ex).toAuth (real cr)) { realm, static, st := .helloSent }
        (newChallenge mCRA (some [(str "challenge", .str ch)]))).2 = .ok (some (newAuthenticate (signCRA (real cr) ch a) ex)) := rfl
    simp only [h2]
    have h3 : ∀ s : Acceptor.State, s = { static, st := .challengeSent, authMethod := mCRA, hello := some ⟨realm, cid, ex⟩,
                                          response := some (newCRAResponse authID role b), challenge := ch } →
        (Acceptor.recv (real cr) env' s (newAuthenticate (signCRA (real cr) ch a) ex)).res =
        if verifyCRA (real cr) (signCRA (real cr) ch a) ch b then
          .ok (newWelcome env'.id (some (Acceptor.welcomeDetails realm authID role mCRA))) else .ok Acceptor.abortNoArgs := by
      rintro s rfl
      show (if verifyCRA (real cr) (signCRA (real cr) ch a) ch b then
        Acceptor.sendWelcome _ env'.id (some (newCRAResponse authID role b)) ex none else _ : Acceptor.Out).res = _
      split <;> rfl
    rw [h3 _ rfl]
    cases verifyCRA (real cr) (signCRA (real cr) ch a) ch b with
    | true => simp [isWelcome, newWelcome]
    | false => simp [isWelcome, Acceptor.abortNoArgs, newAbort]
  rw [key, C169_secrets_partial]
  constructor
  · rintro (h | h | ⟨h1, h2⟩)
    · exact .inl h.1
    · exact .inr h
    · exact .inl (masked_inj h1)
  · rintro (h | h)
    · exact .inl ⟨h, rfl⟩
    · exact .inr (.inl h)

/-- Zeros at the end of a secret of at most 64 bytes do not matter, and a longer one can be replaced by its hash. -/
theorem C169_secrets_refuted (cr : Crypto) (ch : Str) : (∀ secret n, secret.length + n ≤ 64 →
      verifyCRA (real cr) (signCRA (real cr) ch (secret ++ List.replicate n 0)) ch secret = true) ∧
    ∀ secret, 64 < secret.length → verifyCRA (real cr) (signCRA (real cr) ch (sha256 secret)) ch secret = true := by
  refine ⟨fun s n h => (C169_secrets_partial cr _ _ ch ch).mpr (.inl ⟨?_, rfl⟩), fun s h => (C169_secrets_partial cr _ _ ch ch).mpr (.inl ⟨?_, rfl⟩)⟩
  · unfold effective
    rw [if_pos (by simpa using h), if_pos (by omega)]
    refine stripZeros_ext fun i => ?_
    rw [List.getD_eq_getElem?_getD, List.getD_eq_getElem?_getD, List.getElem?_append]
    split
    · rfl
    · rw [List.getElem?_replicate, List.getElem?_eq_none (by omega)]
      split <;> rfl
  · unfold effective
    rw [if_pos (by rw [sha256_length]; decide), if_neg (by omega)]

/-- Secrets that are the same as far as they matter, although they differ, and secrets that are not. -/
example : str "secret" ≠ str "secret" ++ [0, 0] ∧ effective (str "secret") = effective (str "secret" ++ [0, 0]) ∧
    effective (str "secret") ≠ effective (str "Secret") ∧ effective (str "secret") ≠ effective ([0] ++ str "secret") := by decide +kernel
example : let long : Str := List.replicate 70 0x61
    effective long = effective (sha256 long) ∧ effective long ≠ effective (List.replicate 64 0x61) ∧ long ≠ sha256 long := by decide +kernel

/-- A client that knows `"secret\x00"` is welcomed by a server with `"secret"`, one that knows `"Secret"` is not. -/
example : let cr : Crypto := ⟨fun _ _ => [], fun _ _ _ _ => [], id, fun _ _ => [], fun _ _ _ => false⟩
    let env : Acceptor.Env := ⟨[mTicket, mCRA], fun _ => .ok (newCRAResponse (str "joe") (str "user") (str "secret")), 7, some (str "{}"), none⟩
    let answer : Str → Option Nat := fun s => (login (real cr) env env false (str "realm1") (newCRA (str "joe") s none)).map
      fun m => match m with | .welcome i _ => i | _ => 0
    answer (str "secret") = some 7 ∧ answer (str "secret" ++ [0]) = some 7 ∧ answer (str "Secret") = some 0 := by decide +kernel

/-- **C169.** The same for a salted secret: the client is welcomed exactly if the keys derived from the two secrets are the same, as far as they
matter, or if two different texts have the same SHA-256. -/
theorem C169_login_salted_partial (cr : Crypto) (env env' : Acceptor.Env) (static : Bool) (realm cid a b authID role ch salt ka kb : Str)
    (iterations keyLen : Int) (ex : GoMap) (hs : salt ≠ [])
    (hm : mCRA ∈ env.methods) (ha : ∀ q, env.authn q = .ok (newCRAResponseSalted authID role b salt iterations keyLen))
    (hc : env.craChallenge = some ch)
    (hka : deriveCRAKey (real cr) salt a iterations keyLen = .ok ka) (hkb : deriveCRAKey (real cr) salt b iterations keyLen = .ok kb) :
    isWelcome (login (real cr) env env' static realm (newCRA cid a ex)) ↔
      effective ka = effective kb ∨ Collide (outer ka ch) (outer kb ch) := by
  have key : isWelcome (login (real cr) env env' static realm (newCRA cid a ex)) ↔
      verifyCRA (real cr) (signCRA (real cr) ch ka) ch kb = true := by
    have hsel : selectAuthMethod env.methods [mCRA] = some mCRA := by
      unfold selectAuthMethod
      have : env.methods.contains mCRA = true := by simpa using hm
      simp only [List.length_singleton, List.find?, this]
      rfl
    have h1 : Acceptor.recv (real cr) env (Acceptor.init static) (Joiner.helloMsg ((newCRA cid a ex).toAuth (real cr)) { realm, static }) =
        ⟨{ static, st := .challengeSent, authMethod := mCRA, hello := some ⟨realm, cid, ex⟩,
           response := some (newCRAResponseSalted authID role b salt iterations keyLen), challenge := ch },
         .ok (newChallenge mCRA (some (Acceptor.craExtra ch ⟨a, salt, iterations, keyLen⟩))),
         some (newRequest realm cid ex mCRA, .ok (newCRAResponseSalted authID role b salt iterations keyLen))⟩ := by
      show Acceptor.recvHello env (Acceptor.init static) realm cid (some [mCRA]) ex = _
      unfold Acceptor.recvHello
      simp only [Option.getD_some, hsel, ha, hc]
      rfl
    unfold login
    simp only [h1]
    have hauth : craAuthenticate (real cr) a ex (some (Acceptor.craExtra ch ⟨a, salt, iterations, keyLen⟩)) =
        .ok (signCRA (real cr) ch ka, ex) := by
      have h := C25_same_cra_key (real cr) id (fun _ => rfl) ⟨a, salt, iterations, keyLen⟩ rfl rfl ch ex
      have hmap : ((Acceptor.craExtra ch ⟨a, salt, iterations, keyLen⟩).map fun p => (p.1, id p.2)) =
          Acceptor.craExtra ch ⟨a, salt, iterations, keyLen⟩ := by simp
      rw [hmap] at h
      rw [h, craKey, if_neg hs, hka]
      rfl
    have h2 : (Joiner.recv ((newCRA cid a ex).toAuth (real cr)) { realm, static, st := .helloSent }
        (newChallenge mCRA (some (Acceptor.craExtra ch ⟨a, salt, iterations, keyLen⟩)))).2 =
        .ok (some (newAuthenticate (signCRA (real cr) ch ka) ex)) := by
      simp only [newCRA, ClientAuth.toAuth, newChallenge, Joiner.recv, ClientAuth.authenticate, hauth]
      rfl
    simp only [h2]
    have h3 : ∀ s : Acceptor.State, s = { static, st := .challengeSent, authMethod := mCRA, hello := some ⟨realm, cid, ex⟩,
                                          response := some (newCRAResponseSalted authID role b salt iterations keyLen), challenge := ch } →
        (Acceptor.recv (real cr) env' s (newAuthenticate (signCRA (real cr) ch ka) ex)).res =
        if verifyCRA (real cr) (signCRA (real cr) ch ka) ch kb then
          .ok (newWelcome env'.id (some (Acceptor.welcomeDetails realm authID role mCRA))) else .ok Acceptor.abortNoArgs := by
      rintro s rfl
      have hk : craKey (real cr) ⟨b, salt, iterations, keyLen⟩ = .ok kb := by rw [craKey, if_neg hs, hkb]
      show (match craKey (real cr) ⟨b, salt, iterations, keyLen⟩ with
        | .ok key => if verifyCRA (real cr) (signCRA (real cr) ch ka) ch key then
            Acceptor.sendWelcome _ env'.id (some (newCRAResponseSalted authID role b salt iterations keyLen)) ex none else _
        | _ => _ : Acceptor.Out).res = _
      rw [hk]
      show (if verifyCRA (real cr) (signCRA (real cr) ch ka) ch kb then _ else _ : Acceptor.Out).res = _
      split <;> rfl
    rw [h3 _ rfl]
    cases verifyCRA (real cr) (signCRA (real cr) ch ka) ch kb with
    | true => simp [isWelcome, newWelcome]
    | false => simp [isWelcome, Acceptor.abortNoArgs, newAbort]
  rw [key, C169_secrets_partial]
  constructor
  · rintro (h | h | ⟨h1, h2⟩)
    · exact .inl h.1
    · exact .inr h
    · exact .inl (masked_inj h1)
  · rintro (h | h)
    · exact .inl ⟨h, rfl⟩
    · exact .inr (.inl h)

/-- **C169.** Derived keys of at most 48 bytes (and those of the default length) all matter: two of them are the same as far as they matter only if
they are the same. -/
theorem C169_salted_keys (cr : Crypto) (salt a b ka kb : Str) (iterations : Int) (n : Nat) (hn : n ≤ 48)
    (hka : deriveCRAKey (real cr) salt a iterations n = .ok ka) (hkb : deriveCRAKey (real cr) salt b iterations n = .ok kb) :
    effective ka = effective kb ↔ ka = kb := by
  refine ⟨fun h => ?_, fun h => by rw [h]⟩
  obtain ⟨k, h1, l1⟩ := C168_derived cr salt a iterations n
  obtain ⟨k', h2, l2⟩ := C168_derived cr salt b iterations n
  rw [hka] at h1; rw [hkb] at h2
  cases h1; cases h2
  have hle : 4 * (((if n = 0 then 32 else n) + 2) / 3) ≤ 64 := by split <;> omega
  unfold effective at h
  rw [if_pos (by omega), if_pos (by omega)] at h
  refine List.ext_getElem (by omega) fun i hi hj => ?_
  have e : ka.getD i 0 = kb.getD i 0 := by rw [← stripZeros_getD ka, ← stripZeros_getD kb, h]
  simpa [List.getD_eq_getElem?_getD, hi, hj] using e

/-- With a salt and two iterations: the client that knows the secret is welcomed, and one that knows another is not. -/
example : let cr : Crypto := ⟨fun _ _ => [], fun _ _ _ _ => [], id, fun _ _ => [], fun _ _ _ => false⟩
    let env : Acceptor.Env :=
      ⟨[mTicket, mCRA], fun _ => .ok (newCRAResponseSalted (str "joe") (str "user") (str "secret") (str "salt") 2 32), 7, some (str "{}"), none⟩
    let answer : Str → Option Nat := fun s => (login (real cr) env env false (str "realm1") (newCRA (str "joe") s none)).map
      fun m => match m with | .welcome i _ => i | _ => 0
    answer (str "secret") = some 7 ∧ answer (str "Secret") = some 0 := by decide +kernel

end Wamp.Sha256
