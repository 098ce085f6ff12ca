import Verif.Spec.Secrets
import Verif.Props.Auth
/-!
# C136: secrets do not leave
-/
namespace Wamp.Secrets
open Wamp Wamp.Interop

theorem says_congr (a a' : Joiner.Auth) (h1 : a.method = a'.method) (h2 : a.authID = a'.authID) (h3 : a.authExtra = a'.authExtra) :
    ∀ (inputs : List Input) (s : Joiner.State),
      (∀ method extra, Input.message (.challenge method extra) ∈ inputs → a.authenticate method extra = a'.authenticate method extra) →
      clientSays a s inputs = clientSays a' s inputs := by
  intro inputs
  induction inputs with
  | nil => intro s _; rfl
  | cons i rest ih =>
    intro s h
    cases i with
    | hello c =>
      have e : Joiner.sendHello c a s = Joiner.sendHello c a' s := by
        simp only [Joiner.sendHello, Joiner.helloMsg, h1, h2, h3]
      simp only [clientSays, e]
      rw [ih _ fun m e hm => h m e (List.mem_cons_of_mem _ hm)]
    | message m =>
      have e : Joiner.recv a s m = Joiner.recv a' s m := by
        cases m <;> try rfl
        rename_i method extra
        simp only [Joiner.recv, h method extra (by simp)]
      simp only [clientSays, e]
      rw [ih _ fun m e hm => h m e (List.mem_cons_of_mem _ hm)]

/-- **C136** A WAMP-CRA client lets its secret out only as MACs of the challenges it is given: with another secret, and another MAC function that
gives the same MACs for these challenges, it says exactly the same. -/
theorem C136_client_cra (cr cr' : Crypto) (authID secret secret' : Str) (ex : GoMap) (realm : Str) (static : Bool) (inputs : List Input)
    (h : ∀ method extra, Input.message (.challenge method extra) ∈ inputs → ∀ salt,
      craSignatureOf cr (craKeyOf cr secret salt) (extra.text (str "challenge")) =
        craSignatureOf cr' (craKeyOf cr' secret' salt) (extra.text (str "challenge"))) :
    clientSays ((newCRA authID secret ex).toAuth cr) (Joiner.init realm static) inputs =
      clientSays ((newCRA authID secret' ex).toAuth cr') (Joiner.init realm static) inputs := by
  refine says_congr _ _ ?_ ?_ ?_ inputs _ fun method extra hm => ?_
  · rfl
  · rfl
  · rfl
  have hm := h method extra hm
  simp only [ClientAuth.toAuth, newCRA, ClientAuth.authenticate, craAuthenticate]
  by_cases hs : extra.text (str "salt") ≠ []
  · simp only [if_pos hs, deriveCRAKey]
    generalize ((extra.get (str "iterations")).bind asInt).getD 0 = i
    generalize ((extra.get (str "keylen")).bind asInt).getD 0 = k
    generalize (if i = 0 then (1000 : Int) else i) = i'
    generalize (if k = 0 then (32 : Int) else k) = k'
    by_cases hk : k' < 0
    · simp only [if_pos hk]; rfl
    · simp only [if_neg hk, Res.bind]
      have := hm (some (extra.text (str "salt"), i', k'.toNat))
      simp only [craSignatureOf, craKeyOf] at this
      simp only [signCRA, signCRABytes, this]
  · simp only [if_neg hs, Res.bind]
    have := hm none
    simp only [craSignatureOf, craKeyOf] at this
    simp only [signCRA, signCRABytes, this]

/-- Two secrets that no router can tell apart by one challenge, with toy MACs. -/
example : ∃ cr cr' : Crypto, ∃ secret secret' : Str, ∃ inputs, secret ≠ secret' ∧
    (∀ method extra, Input.message (.challenge method extra) ∈ inputs → ∀ salt,
      craSignatureOf cr (craKeyOf cr secret salt) (extra.text (str "challenge")) =
        craSignatureOf cr' (craKeyOf cr' secret' salt) (extra.text (str "challenge"))) ∧
    (clientSays ((newCRA (str "joe") secret none).toAuth cr) (Joiner.init (str "r") false) inputs).1.length = 2 ∧
    ∃ m, Sum.inl (.ok (some m)) ∈ (clientSays ((newCRA (str "joe") secret none).toAuth cr) (Joiner.init (str "r") false) inputs).1 :=
  ⟨⟨fun _ t => t, fun _ _ _ _ => [], id, fun _ _ => [], fun _ _ _ => false⟩, ⟨fun _ t => t ++ [], fun p _ _ _ => p, id, fun _ _ => [], fun _ _ _ => false⟩,
    str "a", str "b", [.hello ⟨fun _ => some [], fun _ => none⟩, .message (.challenge mCRA (some [(str "challenge", .str (str "x"))]))],
    by decide, by intro m e _ salt; simp [craSignatureOf], rfl, _, List.mem_cons_of_mem _ (List.mem_cons_self ..)⟩

/-- **C136** A CryptoSign client lets its private key out only as signatures of the challenges it is given (and as the public key it is told to
announce). -/
theorem C136_client_cryptosign (cr cr' : Crypto) (authID seed seed' : Str) (ex : GoMap) (realm : Str) (static : Bool) (inputs : List Input)
    (h : ∀ method extra raw, Input.message (.challenge method extra) ∈ inputs → hexDecode (extra.text (str "challenge")) = some raw →
      cr.sign seed raw = cr'.sign seed' raw) :
    clientSays ((ClientAuth.cryptosign authID ex seed).toAuth cr) (Joiner.init realm static) inputs =
      clientSays ((ClientAuth.cryptosign authID ex seed').toAuth cr') (Joiner.init realm static) inputs := by
  refine says_congr _ _ ?_ ?_ ?_ inputs _ fun method extra hm => ?_
  · rfl
  · rfl
  · rfl
  simp only [ClientAuth.toAuth, ClientAuth.authenticate, signCryptoSign]
  cases hd : hexDecode (extra.text (str "challenge")) with
  | none => rfl
  | some raw => simp only [h method extra raw hm hd]

/-! ### The router -/

/-- Responses alike except for the secrets. -/
inductive AlikeResp (R : Str → Str → Prop) : Option AuthResp → Option AuthResp → Prop where
  | none : AlikeResp R none none
  | some {r r' : AuthResp} : AlikeAnswer R (.ok r) (.ok r') → AlikeResp R (some r) (some r')

/-- Acceptors alike except for the secrets. -/
structure Alike (R : Str → Str → Prop) (D : Str → Prop) (s s' : Acceptor.State) : Prop where
  static : s.static = s'.static
  st : s.st = s'.st
  authMethod : s.authMethod = s'.authMethod
  hello : s.hello = s'.hello
  request : s.request = s'.request
  response : AlikeResp R s.response s'.response
  challenge : s.challenge = s'.challenge
  details : s.details = s'.details
  drawn : s.st = .challengeSent → s.authMethod = mCRA → D s.challenge

/-- Outputs alike. -/
def AlikeOut (R : Str → Str → Prop) (D : Str → Prop) (o o' : Acceptor.Out) : Prop := Alike R D o.state o'.state ∧ o.res = o'.res

theorem alike_fields {R : Str → Str → Prop} {r r' : AuthResp} (h : AlikeAnswer R (.ok r) (.ok r')) : r.authID = r'.authID ∧ r.authRole = r'.authRole := by
  cases h <;> exact ⟨rfl, rfl⟩

theorem welcome_alike {R : Str → Str → Prop} {D : Str → Prop} {s s' : Acceptor.State} (h : Alike R D s s') (id : Nat) {r r' : Option AuthResp}
    (hr : AlikeResp R r r') (ex : GoMap) (x x' : Option (AuthReq × AuthOut)) :
    AlikeOut R D (Acceptor.sendWelcome s id r ex x) (Acceptor.sendWelcome s' id r' ex x') := by
  unfold Acceptor.sendWelcome
  rw [← h.hello]
  cases hh : s.hello with
  | none => exact ⟨h, rfl⟩
  | some hi =>
    cases r with
    | none =>
      cases r' with
      | none => exact ⟨h, rfl⟩
      | some r' => cases hr
    | some r =>
      cases r' with
      | none => cases hr
      | some r' =>
        cases hr with | some hr => ?_
        obtain ⟨e1, e2⟩ := alike_fields hr
        refine ⟨⟨h.static, rfl, h.authMethod, ?_, h.request, h.response, h.challenge, ?_, by intro e; cases e⟩, ?_⟩
        · simp only
        · simp only [e1, e2, h.authMethod, h.static]
        · simp only [e1, e2, h.authMethod]

theorem hello_alike {R : Str → Str → Prop} {D : Str → Prop} {s s' : Acceptor.State} (h : Alike R D s s') (env : Acceptor.Env)
    (authn' : AuthReq → AuthOut) (ha : ∀ q, AlikeAnswer R (env.authn q) (authn' q)) (hd : ∀ ch, env.craChallenge = some ch → D ch)
    (realm authID : Str) (ms : Option (List Str)) (ex : GoMap) :
    AlikeOut R D (Acceptor.recvHello env s realm authID ms ex) (Acceptor.recvHello { env with authn := authn' } s' realm authID ms ex) := by
  unfold Acceptor.recvHello
  by_cases hst : s.st ≠ .none
  · rw [if_pos hst, if_pos (by rw [← h.st]; exact hst)]
    exact ⟨h, rfl⟩
  · rw [if_neg hst, if_neg (by rw [← h.st]; exact hst)]
    have hst0 : s.st = .none := Classical.not_not.1 hst
    simp only
    cases selectAuthMethod env.methods (ms.getD []) with
    | none => exact ⟨h, rfl⟩
    | some am =>
      have h2 : Alike R D { s with authMethod := am, hello := some ⟨realm, authID, ex⟩ } { s' with authMethod := am, hello := some ⟨realm, authID, ex⟩ } :=
        ⟨h.static, h.st, rfl, rfl, h.request, h.response, h.challenge, h.details, by simp [hst0]⟩
      simp only
      by_cases c1 : am = mAnonymous
      · simp only [if_pos c1]
        have hq := ha (newRequest realm authID ex am)
        revert hq
        generalize env.authn (newRequest realm authID ex am) = x
        generalize authn' (newRequest realm authID ex am) = x'
        intro hq
        cases hq with
        | err t => exact ⟨h2, rfl⟩
        | nilResp => exact welcome_alike h2 _ .none _ _ _
        | plain a b => exact welcome_alike h2 _ (.some (.plain a b)) _ _ _
        | cra a b c d e f g k => exact welcome_alike h2 _ (.some (.cra a b c d e f g k)) _ _ _
      simp only [if_neg c1]
      by_cases c2 : am = mTicket
      · have c3' : ¬ am = mCRA := by subst c2; decide
        simp only [if_pos c2]
        exact ⟨⟨h.static, rfl, rfl, rfl, h.request, h.response, h.challenge, h.details, by intro _ e; exact absurd e c3'⟩, rfl⟩
      simp only [if_neg c2]
      by_cases c3 : am = mCRA
      · simp only [if_pos c3]
        have hq := ha (newRequest realm authID ex am)
        revert hq
        generalize env.authn (newRequest realm authID ex am) = x
        generalize authn' (newRequest realm authID ex am) = x'
        intro hq
        cases hq with
        | err t => exact ⟨h2, rfl⟩
        | nilResp => exact ⟨h2, rfl⟩
        | plain a b => exact ⟨h2, rfl⟩
        | cra a b c d e f g k =>
          simp only
          cases hch : env.craChallenge with
          | none => exact ⟨h2, rfl⟩
          | some ch =>
            exact ⟨⟨h.static, rfl, rfl, rfl, h.request, .some (.cra a b c d e f g k), rfl, h.details, fun _ _ => hd ch hch⟩, rfl⟩
      simp only [if_neg c3]
      by_cases c4 : am = mCryptoSign
      · simp only [if_pos c4]
        cases ex.get (str "pubkey") with
        | none => exact ⟨h2, rfl⟩
        | some v =>
          simp only
          cases v.asStr? with
          | none => exact ⟨h2, rfl⟩
          | some pk =>
            simp only
            by_cases c5 : pk = []
            · simp only [if_pos c5]; exact ⟨h2, rfl⟩
            simp only [if_neg c5]
            have hq := ha (newCryptoSignRequest realm authID ex pk)
            revert hq
            generalize env.authn (newCryptoSignRequest realm authID ex pk) = x
            generalize authn' (newCryptoSignRequest realm authID ex pk) = x'
            intro hq
            cases hq with
            | err t => exact ⟨h2, rfl⟩
            | nilResp =>
              simp only
              cases env.csChallenge with
              | none => exact ⟨⟨h.static, h.st, rfl, rfl, rfl, .none, h.challenge, h.details, by simp [hst0]⟩, rfl⟩
              | some ch => exact ⟨⟨h.static, rfl, rfl, rfl, rfl, .none, rfl, h.details, fun _ e => absurd e c3⟩, rfl⟩
            | plain a b =>
              simp only
              cases env.csChallenge with
              | none => exact ⟨⟨h.static, h.st, rfl, rfl, rfl, .some (.plain a b), h.challenge, h.details, by simp [hst0]⟩, rfl⟩
              | some ch => exact ⟨⟨h.static, rfl, rfl, rfl, rfl, .some (.plain a b), rfl, h.details, fun _ e => absurd e c3⟩, rfl⟩
            | cra a b c d e f g k =>
              simp only
              cases env.csChallenge with
              | none => exact ⟨⟨h.static, h.st, rfl, rfl, rfl, .some (.cra a b c d e f g k), h.challenge, h.details, by simp [hst0]⟩, rfl⟩
              | some ch => exact ⟨⟨h.static, rfl, rfl, rfl, rfl, .some (.cra a b c d e f g k), rfl, h.details, fun _ e => absurd e c3⟩, rfl⟩
      simp only [if_neg c4]
      exact ⟨h2, rfl⟩

/-- The signature is judged alike. -/
def Judged (cr cr' : Crypto) (R : Str → Str → Prop) (D : Str → Prop) (sig : Str) : Prop :=
  ∀ s s', R s s' → ∀ salt ch, D ch → (b64Decode sig = some (cr.hmac (craKeyOf cr s salt) ch) ↔ b64Decode sig = some (cr'.hmac (craKeyOf cr' s' salt) ch))

theorem craKey_alike {cr cr' : Crypto} {R : Str → Str → Prop} {D : Str → Prop} {sig : Str} (hj : Judged cr cr' R D sig) {s s' : Str} (hr : R s s')
    (salt ch : Str) (i k : Int) (hd : D ch) :
    (craKey cr ⟨s, salt, i, k⟩ = .panic ∧ craKey cr' ⟨s', salt, i, k⟩ = .panic) ∨
    ∃ key key', craKey cr ⟨s, salt, i, k⟩ = .ok key ∧ craKey cr' ⟨s', salt, i, k⟩ = .ok key' ∧ verifyCRA cr sig ch key = verifyCRA cr' sig ch key' := by
  have eqv : ∀ p, verifyCRA cr sig ch (craKeyOf cr s p) = verifyCRA cr' sig ch (craKeyOf cr' s' p) := by
    intro p
    have := hj s s' hr p ch hd
    rw [← C24_cra_soundness, ← C24_cra_soundness] at this
    exact Bool.eq_iff_iff.2 this
  unfold craKey
  by_cases hs : salt = []
  · simp only [if_pos hs]
    exact .inr ⟨_, _, rfl, rfl, eqv none⟩
  · simp only [if_neg hs, deriveCRAKey]
    generalize (if i = 0 then (1000 : Int) else i) = i'
    generalize (if k = 0 then (32 : Int) else k) = k'
    by_cases hk : k' < 0
    · simp [if_pos hk]
    · simp only [if_neg hk]
      exact .inr ⟨_, _, rfl, rfl, eqv (some (salt, i', k'.toNat))⟩

theorem auth_alike {cr cr' : Crypto} (hv : cr.verify = cr'.verify) {R : Str → Str → Prop} {D : Str → Prop} {s s' : Acceptor.State} (h : Alike R D s s')
    (env : Acceptor.Env) (authn' : AuthReq → AuthOut) (ha : ∀ q, AlikeAnswer R (env.authn q) (authn' q)) (sig : Str) (hj : Judged cr cr' R D sig)
    (ex : GoMap) :
    AlikeOut R D (Acceptor.recvAuthenticate cr env s sig ex) (Acceptor.recvAuthenticate cr' { env with authn := authn' } s' sig ex) := by
  unfold Acceptor.recvAuthenticate
  rw [← h.st, ← h.authMethod, ← h.hello, ← h.challenge, ← h.request]
  by_cases hst : s.st ≠ .challengeSent
  · simp only [if_pos hst]; exact ⟨h, rfl⟩
  simp only [if_neg hst]
  have hst0 : s.st = .challengeSent := Classical.not_not.1 hst
  by_cases c1 : s.authMethod = mTicket
  · simp only [if_pos c1]
    cases s.hello with
    | none => exact ⟨h, rfl⟩
    | some hi =>
      simp only
      have hq := ha (newTicketRequest hi.realm hi.authID hi.authExtra sig)
      revert hq
      generalize env.authn (newTicketRequest hi.realm hi.authID hi.authExtra sig) = x
      generalize authn' (newTicketRequest hi.realm hi.authID hi.authExtra sig) = x'
      intro hq
      cases hq with
      | err t => exact ⟨h, rfl⟩
      | nilResp => exact welcome_alike h _ .none _ _ _
      | plain a b => exact welcome_alike h _ (.some (.plain a b)) _ _ _
      | cra a b c d e f g k => exact welcome_alike h _ (.some (.cra a b c d e f g k)) _ _ _
  simp only [if_neg c1]
  by_cases c2 : s.authMethod = mCRA
  · simp only [if_pos c2]
    have hr := h.response
    revert hr
    generalize hx : s.response = x
    generalize hx' : s'.response = x'
    intro hr
    cases x with
    | none =>
      cases x' with
      | none => exact ⟨h, rfl⟩
      | some r' => cases hr
    | some r =>
      cases x' with
      | none => cases hr
      | some r' =>
        cases hr with | some hr' => ?_
        cases hr' with
        | plain a b => exact ⟨h, rfl⟩
        | cra a b c d e f g k =>
          simp only [Option.bind_some]
          rcases craKey_alike hj k e s.challenge f g (h.drawn hst0 c2) with ⟨k1, k2⟩ | ⟨key, key', k1, k2, kv⟩
          · simp only [k1, k2]; exact ⟨h, rfl⟩
          · simp only [k1, k2, kv]
            cases verifyCRA cr' sig s.challenge key' with
            | true => exact welcome_alike h _ (.some (.cra a b c d e f g k)) _ _ _
            | false => exact ⟨h, rfl⟩
  simp only [if_neg c2]
  by_cases c3 : s.authMethod = mCryptoSign
  · simp only [if_pos c3]
    cases s.request.bind (·.publicKey) with
    | none => exact ⟨h, rfl⟩
    | some pk =>
      simp only
      cases hexDecode pk with
      | none => exact ⟨h, rfl⟩
      | some key =>
        simp only
        have e : verifyCryptoSign cr sig key = verifyCryptoSign cr' sig key := by
          simp only [verifyCryptoSign, signOpen, hv]
        rw [e]
        cases (verifyCryptoSign cr' sig key).getD false with
        | true => exact welcome_alike h _ h.response _ _ _
        | false => exact ⟨h, rfl⟩
  simp only [if_neg c3]
  exact ⟨h, rfl⟩

/-- **C136** An acceptor lets the users' WAMP-CRA secrets out only by saying whether a signature is right: with other secrets, and another MAC
function under which the signatures received are right for the same challenges, it says exactly the same. -/
theorem C136_router (cr cr' : Crypto) (hv : cr.verify = cr'.verify) (R : Str → Str → Prop) (static : Bool) (inputs inputs' : List (Acceptor.Env × Msg))
    (hi : AlikeInputs R inputs inputs')
    (h : ∀ env sig ex, (env, Msg.authenticate sig ex) ∈ inputs → ∀ env' m ch, (env', m) ∈ inputs → env'.craChallenge = some ch → ∀ s s', R s s' → ∀ salt,
      (b64Decode sig = some (cr.hmac (craKeyOf cr s salt) ch) ↔ b64Decode sig = some (cr'.hmac (craKeyOf cr' s' salt) ch))) :
    routerSays cr (Acceptor.init static) inputs = routerSays cr' (Acceptor.init static) inputs' := by
  let D : Str → Prop := fun ch => ∃ env' m, (env', m) ∈ inputs ∧ env'.craChallenge = some ch
  have gen : ∀ (l l' : List (Acceptor.Env × Msg)), AlikeInputs R l l' → (∀ x ∈ l, x ∈ inputs) → ∀ s s', Alike R D s s' →
      routerSays cr s l = routerSays cr' s' l' := by
    intro l l' hl
    induction hl with
    | nil => intro _ s s' hs; simp only [routerSays, Acceptor.sessionDetails, hs.details]
    | @cons env authn' m l l' ha _ ih =>
      intro hsub s s' hs
      have hmem := hsub (env, m) (by simp)
      have key : AlikeOut R D (Acceptor.recv cr env s m) (Acceptor.recv cr' { env with authn := authn' } s' m) := by
        unfold Acceptor.recv
        rw [← hs.st]
        by_cases hw : s.st = .welcomeSent
        · simp only [if_pos hw]; exact ⟨hs, rfl⟩
        simp only [if_neg hw]
        cases m with
        | hello realm authID ms ex roles => exact hello_alike hs env authn' ha (fun ch hch => ⟨env, _, hmem, hch⟩) realm authID ms ex
        | authenticate sig ex =>
          exact auth_alike hv hs env authn' ha sig (fun x x' hx p ch ⟨e, m, hm, hc⟩ => h env sig ex hmem e m ch hm hc x x' hx p) ex
        | _ => exact ⟨hs, rfl⟩
      simp only [routerSays, key.2, ih (fun x hx => hsub x (List.mem_cons_of_mem _ hx)) _ _ key.1]
  exact gen _ _ hi (fun x hx => hx) _ _ ⟨rfl, rfl, rfl, rfl, rfl, .none, rfl, rfl, by intro e; cases e⟩

/-- A login that works with either of two secrets, with toy MACs. -/
example : ∃ cr cr' : Crypto, ∃ inputs inputs', cr.verify = cr'.verify ∧ AlikeInputs (fun s s' => s = str "a" ∧ s' = str "b") inputs inputs' ∧
    (∀ env sig ex, (env, Msg.authenticate sig ex) ∈ inputs → ∀ env' m ch, (env', m) ∈ inputs → env'.craChallenge = some ch →
      ∀ s s', s = str "a" ∧ s' = str "b" → ∀ salt,
      (b64Decode sig = some (cr.hmac (craKeyOf cr s salt) ch) ↔ b64Decode sig = some (cr'.hmac (craKeyOf cr' s' salt) ch))) ∧
    ∃ id d, (routerSays cr (Acceptor.init false) inputs).1.getLast? = some (.ok (.welcome id d)) := by
  let resp (s : Str) : AuthOut := .ok ⟨str "joe", str "user", some ⟨s, str "salt", 5, 16⟩⟩
  let env : Acceptor.Env := ⟨[mCRA], fun _ => resp (str "a"), 5, some (str "text"), none⟩
  refine ⟨⟨fun _ t => t, fun _ _ _ _ => [], id, fun _ _ => [], fun _ _ _ => false⟩, ⟨fun _ t => t ++ [], fun p _ _ _ => p, id, fun _ _ => [], fun _ _ _ => false⟩,
    [(env, .hello (str "r") (str "joe") (some [mCRA]) none none), (env, .authenticate (b64Encode (str "text")) none)], _, rfl,
    .cons env (fun _ => resp (str "b")) _ (fun _ => .cra _ _ _ _ _ _ _ ⟨rfl, rfl⟩) (.cons env (fun _ => resp (str "b")) _ (fun _ => .cra _ _ _ _ _ _ _ ⟨rfl, rfl⟩) .nil),
    ?_, 5, _, rfl⟩
  intro env sig ex _ env' m ch _ _ s s' _ salt
  simp

end Wamp.Secrets
