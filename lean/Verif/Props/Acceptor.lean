import Verif.Lemmas.Acceptor
/-!
# C30–C37: the acceptor

All theorems range over all histories (`Hist`): every sequence of messages, every (possibly stateful) server authenticator
and every outcome of the random source. Histories list the newest call first.
-/
namespace Wamp.Acceptor

theorem hist_append {cr : Crypto} {static : Bool} {h2 : List Call} : ∀ {h1 : List Call} {s : State},
    Hist cr static (h1 ++ h2) s → ∃ s', Hist cr static h2 s'
  | [], s, hh => ⟨s, hh⟩
  | _ :: h1, _, hh => by
    cases hh with
    | call env m hh => exact hist_append (h1 := h1) hh

/-- The recorded answers are those of the authenticator in the same call. -/
theorem recv_asked (cr : Crypto) (env : Env) (s : State) (m : Msg) (q : AuthReq) (a : AuthOut)
    (h : (recv cr env s m).asked = some (q, a)) : env.authn q = a := by
  have hw : ∀ (s' : State) id r e x, (sendWelcome s' id r e x).asked = x := by
    intro s' id r e x; unfold sendWelcome; split <;> rfl
  unfold recv at h
  split at h
  · cases h
  · split at h
    · rename_i realm authID ms ex _
      revert h
      fun_cases recvHello env s realm authID ms ex
      all_goals simp only [hw]
      all_goals
        intro h
        first
          | (exact (Option.some_ne_none _ h.symm).elim)
          | (simp only [Option.some.injEq, Prod.mk.injEq] at h; obtain ⟨rfl, rfl⟩ := h; first | assumption | rfl)
    · rename_i sig ex
      revert h
      fun_cases recvAuthenticate cr env s sig ex
      all_goals simp only [hw]
      all_goals
        intro h
        first
          | (exact (Option.some_ne_none _ h.symm).elim)
          | (simp only [Option.some.injEq, Prod.mk.injEq] at h; obtain ⟨rfl, rfl⟩ := h; first | assumption | rfl)
    · cases h

theorem hist_asked {cr : Crypto} {static : Bool} {h : List Call} {s : State} (hh : Hist cr static h s) :
    ∀ c ∈ h, ∀ q a, c.asked = some (q, a) → c.env.authn q = a := by
  induction hh with
  | new => simp
  | @call h s env m _ ih =>
    intro c hc
    rcases List.mem_cons.1 hc with rfl | hc
    · exact fun q a hq => recv_asked cr env s m q a hq
    · exact ih c hc

/-- After a WELCOME the state is established by that very call. -/
theorem welcome_justified {cr : Crypto} {static : Bool} {h : List Call} {w : Call} {s : State} {id : Nat} {d : GoMap}
    (hh : Hist cr static (w :: h) s) (hw : w.out = .ok (.welcome id d)) :
    ∃ realm method r aex, d = some (welcomeDetails realm r.authID r.authRole method) ∧
      s.details = some (newSessionDetails id realm r.authID r.authRole method s.static (some routerRoles) aex) ∧
      Justified cr w h realm method r aex := by
  have hi := hist_inv hh
  have hans : w.answered .welcome := ⟨_, hw, rfl⟩
  unfold Inv at hi
  split at hi
  · exact absurd hans (not_welcome_of_onlyAborts hi.2 w (by simp))
  · exact absurd hans (not_welcome_of_outstanding hi.2 w (by simp))
  · obtain ⟨h1, w', h2, id', realm, method, r, aex, he, h1e, h2n, hout, hd, hj⟩ := hi
    cases h1 with
    | nil =>
      simp only [List.nil_append, List.cons.injEq] at he
      obtain ⟨rfl, rfl⟩ := he
      rw [hw] at hout
      cases hout
      exact ⟨realm, method, r, aex, rfl, hd, hj⟩
    | cons x h1 =>
      simp only [List.cons_append, List.cons.injEq] at he
      obtain ⟨rfl, rfl⟩ := he
      have := h1e w (by simp)
      rw [hw] at this; cases this

theorem welcomeDetails_fields (realm authID authRole method : Str) :
    GoMap.get (some (welcomeDetails realm authID authRole method)) (str "realm") = some (.str realm) ∧
    GoMap.get (some (welcomeDetails realm authID authRole method)) (str "authid") = some (.str authID) ∧
    GoMap.get (some (welcomeDetails realm authID authRole method)) (str "authrole") = some (.str authRole) ∧
    GoMap.get (some (welcomeDetails realm authID authRole method)) (str "authmethod") = some (.named method) :=
  ⟨rfl, rfl, rfl, rfl⟩

/-- **C30** Whenever a call returns WELCOME: there is a HELLO `c` in the history (this call or an earlier one) such that
every later HELLO was refused with an error, and in this call or since that HELLO the authenticator approved a request
with the HELLO's realm, authid and auth extra, for the method selected from the HELLO's proposals; and the WELCOME carries
the realm of that HELLO, that method, and the authid and authrole of that approval. -/
theorem C30_welcome_approved {cr : Crypto} {static : Bool} {h : List Call} {w : Call} {s : State} {id : Nat} {d : GoMap}
    (hh : Hist cr static (w :: h) s) (hw : w.out = .ok (.welcome id d)) :
    ∃ later c earlier realm authID ms ex method, w :: h = later ++ c :: earlier ∧
      (∀ x ∈ later, x.msg.kind = .hello → x.out = .err) ∧ IsHello c.msg realm authID ms ex ∧
      selectAuthMethod c.env.methods (ms.getD []) = some method ∧
      ∃ a ∈ later ++ [c], ∃ req r, a.approved req r ∧ a.env.authn req = .ok r ∧ Asks req realm authID ex method ∧
        d.get (str "realm") = some (.str realm) ∧ d.get (str "authid") = some (.str r.authID) ∧
        d.get (str "authrole") = some (.str r.authRole) ∧ d.get (str "authmethod") = some (.named method) := by
  have hask := hist_asked hh
  obtain ⟨realm, method, r, aex, rfl, -, hj⟩ := welcome_justified hh hw
  obtain ⟨f1, f2, f3, f4⟩ := welcomeDetails_fields realm r.authID r.authRole method
  rcases hj with ⟨authID, ms, ex, hhello, rfl, -, hsel, hasked, -⟩ |
    ⟨h1, c, h2, authID, ms, ex, s', sig, rfl, -, -, hlater, hhello, hsel, hm, hf, hmsg, hcase⟩
  · exact ⟨[], w, h, realm, authID, ms, ex, _, rfl, by simp, hhello, hsel, w, by simp, _, r, hasked,
      hask w (by simp) _ _ hasked, ⟨rfl, rfl, rfl, rfl⟩, f1, f2, f3, f4⟩
  · refine ⟨w :: h1, c, h2, realm, authID, ms, ex, method, rfl, ?_, hhello, hsel, ?_⟩
    · intro x hx hk
      rcases List.mem_cons.1 hx with rfl | hx
      · rw [hmsg] at hk; cases hk
      · exact hlater x hx hk
    · have hcmem : c ∈ w :: h1 ++ [c] := by simp
      have hcmem' : c ∈ w :: (h1 ++ c :: h2) := by simp
      rcases hcase with ⟨rfl, ha⟩ | ⟨rfl, hr, -⟩ | ⟨rfl, hr, -⟩
      · exact ⟨w, by simp, _, r, ha, hask w (by simp) _ _ ha, ⟨rfl, rfl, rfl, rfl⟩, f1, f2, f3, f4⟩
      · rcases hf with ⟨hm', _⟩ | ⟨_, r', info, ha, _, hr', _⟩ | ⟨hm', _⟩
        · rw [hm] at hm'; exact absurd hm' (by decide)
        · rw [hr] at hr'; cases hr'
          exact ⟨c, hcmem, _, r, ha, hask c hcmem' _ _ ha, ⟨rfl, rfl, rfl, rfl⟩, f1, f2, f3, f4⟩
        · rw [hm] at hm'; exact absurd hm' (by decide)
      · rcases hf with ⟨hm', _⟩ | ⟨hm', _⟩ | ⟨_, pk, a, _, ha, _, hra, _⟩
        · rw [hm] at hm'; exact absurd hm' (by decide)
        · rw [hm] at hm'; exact absurd hm' (by decide)
        · rcases hra with ⟨_, hr'⟩ | ⟨r', rfl, hr'⟩
          · rw [hr] at hr'; cases hr'
          · rw [hr] at hr'; cases hr'
            exact ⟨c, hcmem, _, r, ha, hask c hcmem' _ _ ha, ⟨rfl, rfl, rfl, rfl⟩, f1, f2, f3, f4⟩

/-! Concrete histories, used as non-vacuity witnesses. -/
namespace Demo
/-- A toy signature scheme meeting `SigScheme`, and a toy MAC. -/
def cr : Crypto := ⟨fun k m => k ++ m, fun p s _ _ => p ++ s, id, fun s _ => s ++ s, fun p _ s => s == p ++ p⟩
/-- An authenticator that approves everything, with a WAMP-CRA secret. -/
def env (ch : Str) : Env :=
  ⟨[mTicket, mCRA, mCryptoSign, mAnonymous], fun _ => .ok ⟨str "joe", str "user", some ⟨str "s3", str "salt", 10, 16⟩⟩, 77,
    some ch, some ch⟩
/-- HELLO proposing one method. -/
def hello (m : Str) (ex : GoMap) : Msg := newHello (str "realm1") (str "joe") ex (some []) (some [m])
def seed : Str := List.replicate 32 7
def craSig (ch : Str) : Str := b64Encode (cr.hmac (b64Encode (str "s3" ++ str "salt")) ch)

/-- HELLO, a wrong AUTHENTICATE, then the right one. -/
def craRun : List (Env × Msg) :=
  [(env (str "ch"), hello mCRA none), (env [], .authenticate (str "bad!") none),
   (env [], .authenticate (craSig (str "ch")) none)]
end Demo

set_option maxRecDepth 20000 in
/-- A WAMP-CRA login that ends with WELCOME: the hypotheses of `C30_welcome_approved` and `C31_cra_binding` are met. -/
example : ∃ w h s id d, Hist Demo.cr false (w :: h) s ∧ w.out = .ok (.welcome id d) ∧
    d.get (str "authmethod") = some (.named mCRA) :=
  ⟨_, _, _, _, _, runAll_hist Demo.cr false Demo.craRun, rfl, rfl⟩

/-- **C31** A WELCOME for `wampcra` is returned only in response to an AUTHENTICATE whose signature is base64 of the MAC of
the challenge text sent in the last CHALLENGE, under the key of the response approved when that CHALLENGE was made; the WELCOME carries that response's authid and role. -/
theorem C31_cra_binding {cr : Crypto} {static : Bool} {h : List Call} {w : Call} {s : State} {id : Nat} {d : GoMap}
    (hh : Hist cr static (w :: h) s) (hw : w.out = .ok (.welcome id d))
    (hm : d.get (str "authmethod") = some (.named mCRA)) :
    ∃ sig aex later c earlier extra ch req r info key, w.msg = .authenticate sig aex ∧
      h = later ++ c :: earlier ∧ (∀ x ∈ later, ¬ x.answered .challenge) ∧
      c.out = .ok (.challenge mCRA extra) ∧ extra.get (str "challenge") = some (.str ch) ∧
      c.approved req r ∧ r.cra = some info ∧ craKey cr info = .ok key ∧
      b64Decode sig = some (cr.hmac key ch) ∧
      d.get (str "authid") = some (.str r.authID) ∧ d.get (str "authrole") = some (.str r.authRole) := by
  obtain ⟨realm, method, r, aex, rfl, -, hj⟩ := welcome_justified hh hw
  have hm' : method = mCRA := by
    have := (welcomeDetails_fields realm r.authID r.authRole method).2.2.2
    rw [hm] at this; cases this; rfl
  subst hm'
  rcases hj with ⟨authID, ms, ex, _, hx, _⟩ |
    ⟨h1, c, h2, authID, ms, ex, s', sig, rfl, ha1, -, -, -, -, hm, hf, hmsg, hcase⟩
  · exact absurd hx (by decide)
  · rcases hcase with ⟨hx, _⟩ | ⟨_, hr, info, key, hi, hk, hsig⟩ | ⟨hx, _⟩
    · exact absurd hx (by decide)
    · rcases hf with ⟨hx, _⟩ | ⟨_, r', info', ha, hi', hr', hout⟩ | ⟨hx, _⟩
      · rw [hm] at hx; exact absurd hx (by decide)
      · rw [hr] at hr'; cases hr'
        rw [hi] at hi'; cases hi'
        refine ⟨sig, aex, h1, c, h2, _, s'.challenge, _, r, info, key, hmsg, rfl, ?_, hout, ?_, ha, hi, hk, hsig,
          (welcomeDetails_fields ..).2.1, (welcomeDetails_fields ..).2.2.1⟩
        · rintro x hx ⟨m, hm, hk⟩
          rw [ha1 x hx m hm] at hk; cases hk
        · unfold craExtra; split <;> rfl
      · rw [hm] at hx; exact absurd hx (by decide)
    · exact absurd hx (by decide)

/-- **C32** (refuted) The signature is not compared with the challenge: for every signature scheme, every key and every two
32-byte values, an acceptor that sent `ch` as its challenge answers WELCOME to a signature over `other`. -/
theorem C32_replay_accepted (cr : Crypto) (hc : SigScheme cr) (seed ch other : Str) (hl : seed.length = 32)
    (ho : other.length = 32) :
    ∃ c1 c2 s id d, Hist cr false [c2, c1] s ∧
      c1.out = .ok (newChallenge mCryptoSign (some [(str "challenge", .str (cryptoSignChallenge ch))])) ∧
      (∃ sig, signCryptoSign cr (hexEncode other) seed = some sig ∧ c2.msg = .authenticate sig none) ∧
      c2.out = .ok (.welcome id d) := by
  obtain ⟨sig, h1, h2⟩ := C26_cryptosign_completeness cr hc seed hl (hexEncode other) other (hexDecode_encode _) ho
  let env : Env := ⟨[mCryptoSign], fun _ => .ok ⟨str "joe", str "user", none⟩, 5, none, some (cryptoSignChallenge ch)⟩
  let ex : GoMap := some [(str "pubkey", .str (hexEncode (cr.pubOfSeed seed)))]
  have hne : hexEncode (cr.pubOfSeed seed) ≠ [] := by
    have := hexEncode_length (cr.pubOfSeed seed)
    rw [hc.pub _ hl] at this
    intro h; rw [h] at this; cases this
  have hs1 : recv cr env (init false) (Demo.hello mCryptoSign ex) =
      ⟨{ static := false, st := .challengeSent, authMethod := mCryptoSign,
         hello := some ⟨str "realm1", str "joe", ex⟩,
         request := some (newCryptoSignRequest (str "realm1") (str "joe") ex (hexEncode (cr.pubOfSeed seed))),
         response := some ⟨str "joe", str "user", none⟩, challenge := cryptoSignChallenge ch, details := none },
       .ok (newChallenge mCryptoSign (some [(str "challenge", .str (cryptoSignChallenge ch))])),
       some (newCryptoSignRequest (str "realm1") (str "joe") ex (hexEncode (cr.pubOfSeed seed)),
         .ok ⟨str "joe", str "user", none⟩)⟩ := by
    have hsel : selectAuthMethod env.methods [mCryptoSign] = some mCryptoSign := rfl
    have hg : ex.get (str "pubkey") = some (.str (hexEncode (cr.pubOfSeed seed))) := rfl
    simp only [recv, Demo.hello, newHello, recvHello, init, Option.getD_some, hsel, hg, Val.asStr?, if_neg hne]
    rfl
  refine ⟨callOf cr env (init false) (Demo.hello mCryptoSign ex),
    callOf cr env (recv cr env (init false) (Demo.hello mCryptoSign ex)).state (.authenticate sig none), _,
    5, some (welcomeDetails (str "realm1") (str "joe") (str "user") mCryptoSign),
    .call env (.authenticate sig none) (.call env (Demo.hello mCryptoSign ex) .new), ?_, ⟨sig, h1, rfl⟩, ?_⟩
  · simp only [callOf, hs1]
  · rw [hs1]
    simp only [callOf, recv, recvAuthenticate, newCryptoSignRequest, Option.bind_some, hexDecode_encode, h2,
      Option.getD_some]
    rfl

/-- **C32** (partial) A WELCOME for `cryptosign` is returned only in response to an AUTHENTICATE that carries a 64-byte
signature followed by some 32-byte message, valid under the public key approved when the last CHALLENGE was made; the
WELCOME carries the authid and role of that approval. Missing: that the signed message is the challenge. -/
theorem C32_cryptosign_partial {cr : Crypto} {static : Bool} {h : List Call} {w : Call} {s : State} {id : Nat} {d : GoMap}
    (hh : Hist cr static (w :: h) s) (hw : w.out = .ok (.welcome id d))
    (hm : d.get (str "authmethod") = some (.named mCryptoSign)) :
    ∃ sig aex later c earlier extra req r pk key sg msg, w.msg = .authenticate sig aex ∧
      h = later ++ c :: earlier ∧ (∀ x ∈ later, ¬ x.answered .challenge) ∧
      c.out = .ok (.challenge mCryptoSign extra) ∧ c.approved req r ∧ req.publicKey = some pk ∧
      hexDecode pk = some key ∧ hexDecode sig = some (sg ++ msg) ∧ sg.length = 64 ∧ msg.length = 32 ∧
      cr.verify ((key ++ List.replicate 32 0).take 32) msg sg = true ∧
      d.get (str "authid") = some (.str r.authID) ∧ d.get (str "authrole") = some (.str r.authRole) := by
  obtain ⟨realm, method, r, aex, rfl, -, hj⟩ := welcome_justified hh hw
  have hm' : method = mCryptoSign := by
    have := (welcomeDetails_fields realm r.authID r.authRole method).2.2.2
    rw [hm] at this; cases this; rfl
  subst hm'
  rcases hj with ⟨authID, ms, ex, _, hx, _⟩ |
    ⟨h1, c, h2, authID, ms, ex, s', sig, rfl, ha1, -, -, -, -, hm, hf, hmsg, hcase⟩
  · exact absurd hx (by decide)
  · rcases hcase with ⟨hx, _⟩ | ⟨hx, _⟩ | ⟨_, hr, pk, key, hpk, hkey, hv⟩
    · exact absurd hx (by decide)
    · exact absurd hx (by decide)
    · rcases hf with ⟨hx, _⟩ | ⟨hx, _⟩ | ⟨_, pk', a, _, ha, hreq, hra, hout⟩
      · rw [hm] at hx; exact absurd hx (by decide)
      · rw [hm] at hx; exact absurd hx (by decide)
      · rcases hra with ⟨_, hr'⟩ | ⟨r', rfl, hr'⟩
        · rw [hr] at hr'; cases hr'
        · rw [hr] at hr'; cases hr'
          rw [hreq] at hpk
          obtain ⟨sg, msg, e1, e2, e3, e4⟩ := (C27_cryptosign_soundness cr sig key).1 hv
          refine ⟨sig, aex, h1, c, h2, _, _, r, pk, key, sg, msg, hmsg, rfl, ?_, hout, ha, hpk, hkey, e1, e2, e3, e4,
            (welcomeDetails_fields ..).2.1, (welcomeDetails_fields ..).2.2.1⟩
          rintro x hx ⟨m, hm, hk⟩
          rw [ha1 x hx m hm] at hk; cases hk

/-- **C33** Once a WELCOME was returned (anywhere in the history): all later messages were refused with an error, no other
call in the history returned WELCOME, and whatever message arrives next is refused with an error and leaves the
acceptor as it is (in particular its session details). -/
theorem C33_nothing_after_welcome {cr : Crypto} {static : Bool} {h1 h2 : List Call} {w : Call} {s : State}
    (hh : Hist cr static (h1 ++ w :: h2) s) (hw : w.answered .welcome) :
    (∀ x ∈ h1, x.out = .err) ∧ (∀ x ∈ h2, ¬ x.answered .welcome) ∧
    ∀ env m, (recv cr env s m).res = .err ∧ (recv cr env s m).state = s := by
  have hmem : w ∈ h1 ++ w :: h2 := by simp
  have hi := hist_inv hh
  unfold Inv at hi
  split at hi
  · exact absurd hw (not_welcome_of_onlyAborts hi.2 w hmem)
  · exact absurd hw (not_welcome_of_outstanding hi.2 w hmem)
  · next hst =>
    refine ⟨?_, ?_, fun env m => ?_⟩
    · obtain ⟨a, w', b, _, _, _, _, _, he, ha, hb, _⟩ := hi
      intro x hx
      rcases List.append_eq_append_iff.1 he with ⟨l, e1, e2⟩ | ⟨l, e1, e2⟩
      · exact ha x (by rw [e1]; simp [hx])
      · cases l with
        | nil => simp only [List.append_nil] at e1; subst e1; exact ha x hx
        | cons y l =>
          simp only [List.cons_append, List.cons.injEq] at e2
          obtain ⟨rfl, rfl⟩ := e2
          exact absurd hw (hb w (by simp))
    · obtain ⟨a, w', b, _, _, _, _, _, he, ha, hb, _⟩ := hi
      intro x hx
      rcases List.append_eq_append_iff.1 he with ⟨l, e1, e2⟩ | ⟨l, e1, e2⟩
      · cases l with
        | nil =>
          simp only [List.nil_append, List.cons.injEq] at e2
          obtain ⟨rfl, rfl⟩ := e2; exact hb x hx
        | cons y l =>
          simp only [List.cons_append, List.cons.injEq] at e2
          obtain ⟨rfl, rfl⟩ := e2
          obtain ⟨m, hm, _⟩ := hw
          have := ha w (by rw [e1]; simp)
          rw [hm] at this; cases this
      · cases l with
        | nil =>
          simp only [List.nil_append, List.cons.injEq] at e2
          obtain ⟨rfl, rfl⟩ := e2; exact hb x hx
        | cons y l =>
          simp only [List.cons_append, List.cons.injEq] at e2
          obtain ⟨rfl, rfl⟩ := e2
          exact absurd hw (hb w (by simp))
    · simp [recv, hst]

/-- **C34** The session details are available exactly when a WELCOME was returned, and then they hold the session ID,
realm, authid, authrole and method that the WELCOME carried (and the acceptor's own serializer flag). -/
theorem C34_details_agree {cr : Crypto} {static : Bool} {h : List Call} {s : State} (hh : Hist cr static h s) :
    ((∃ d, sessionDetails s = .ok d) ↔ ∃ w ∈ h, w.answered .welcome) ∧
    ∀ d, sessionDetails s = .ok d → ∀ w ∈ h, ∀ id det, w.out = .ok (.welcome id det) →
      d.id = id ∧ det.get (str "realm") = some (.str d.realm) ∧ det.get (str "authid") = some (.str d.authID) ∧
      det.get (str "authrole") = some (.str d.authRole) ∧ det.get (str "authmethod") = some (.named d.authMethod) ∧
      d.static = static := by
  have hi := hist_inv hh
  have hst := hist_static hh
  unfold Inv at hi
  split at hi
  · have hn := not_welcome_of_onlyAborts hi.2
    refine ⟨⟨?_, ?_⟩, ?_⟩
    · rintro ⟨d, hd⟩; simp [sessionDetails, hi.1, Res.ofOption] at hd
    · rintro ⟨w, hw, ha⟩; exact absurd ha (hn w hw)
    · intro d hd; simp [sessionDetails, hi.1, Res.ofOption] at hd
  · have hn := not_welcome_of_outstanding hi.2
    refine ⟨⟨?_, ?_⟩, ?_⟩
    · rintro ⟨d, hd⟩; simp [sessionDetails, hi.1, Res.ofOption] at hd
    · rintro ⟨w, hw, ha⟩; exact absurd ha (hn w hw)
    · intro d hd; simp [sessionDetails, hi.1, Res.ofOption] at hd
  · obtain ⟨a, w', b, id', realm, method, r, aex, he, ha, hb, hout, hd, _⟩ := hi
    refine ⟨⟨?_, ?_⟩, ?_⟩
    · rintro _; exact ⟨w', by rw [he]; simp, _, hout, rfl⟩
    · rintro _; exact ⟨_, by rw [sessionDetails, hd]; rfl⟩
    · intro d hd' w hw id det hwo
      rw [sessionDetails, hd] at hd'
      cases hd'
      have hww : w = w' := by
        rw [he] at hw
        rcases List.mem_append.1 hw with hw | hw
        · have := ha w hw; rw [hwo] at this; cases this
        · rcases List.mem_cons.1 hw with rfl | hw
          · rfl
          · exact absurd ⟨_, hwo, rfl⟩ (hb w hw)
      subst hww
      rw [hout] at hwo
      cases hwo
      obtain ⟨f1, f2, f3, f4⟩ := welcomeDetails_fields realm r.authID r.authRole method
      exact ⟨rfl, f1, f2, f3, f4, hst⟩

/-- **C35** An AUTHENTICATE is answered with a message only if the last answer other than errors and ABORTs was a
CHALLENGE; and a HELLO is refused with an error whenever that is the case (a challenge is outstanding). -/
theorem C35_authenticate_after_challenge {cr : Crypto} {static : Bool} {h : List Call} {w : Call} {s : State}
    (hh : Hist cr static (w :: h) s) :
    (∀ m, w.msg.kind = .authenticate → w.out = .ok m →
      ∃ h1 c h2, h = h1 ++ c :: h2 ∧ OnlyAborts h1 ∧ c.answered .challenge) ∧
    (∀ h1 c h2, h = h1 ++ c :: h2 → OnlyAborts h1 → c.answered .challenge → w.msg.kind = .hello → w.out = .err) := by
  cases hh with
  | @call h s env m hh =>
    have hi := hist_inv hh
    constructor
    · intro r hk hr
      cases m <;> cases hk
      rename_i sig ex
      by_cases hst : s.st = .challengeSent
      · simp only [Inv, hst] at hi
        obtain ⟨-, h1, c, h2, realm, authID, ms, ex, rfl, ha1, _, _, _, _, _, hf⟩ := hi
        obtain ⟨e, he⟩ := challengeFacts_out hf
        exact ⟨h1, c, h2, rfl, ha1, _, he, rfl⟩
      · by_cases hst' : s.st = .welcomeSent
        · simp [callOf, recv, hst'] at hr
        · simp [callOf, recv, hst', recvAuthenticate, hst] at hr
    · rintro h1 c h2 rfl ha ⟨cm, hc, hck⟩ hk
      cases m <;> cases hk
      rename_i realm authID ms ex roles
      by_cases hst : s.st = .none
      · simp only [Inv, hst] at hi
        have := hi.2 c (by simp) cm hc
        rw [this] at hck; cases hck
      · by_cases hst' : s.st = .welcomeSent
        · simp [callOf, recv, hst']
        · simp [callOf, recv, hst', recvHello, hst]

/-- In the demo history the AUTHENTICATE follows a CHALLENGE and an ABORT. -/
example : ∃ w h s m, Hist Demo.cr false (w :: h) s ∧ w.msg.kind = .authenticate ∧ w.out = .ok m :=
  ⟨_, _, _, _, runAll_hist Demo.cr false (Demo.craRun.take 2), rfl, rfl⟩

set_option maxRecDepth 20000 in
/-- **C36** (refuted) After an ABORT for a wrong signature the same acceptor accepts the right one; and after an ABORT for an
unsupported method a second HELLO succeeds. -/
theorem C36_retry_succeeds :
    (∃ c1 c2 c3 s, Hist Demo.cr false [c3, c2, c1] s ∧ c2.answered .abort ∧ c3.answered .welcome) ∧
    (∃ c1 c2 s, Hist Demo.cr false [c2, c1] s ∧ c1.answered .abort ∧ c2.answered .welcome) := by
  refine ⟨⟨_, _, _, _, runAll_hist Demo.cr false Demo.craRun, ⟨_, rfl, rfl⟩, ⟨_, rfl, rfl⟩⟩,
    ⟨_, _, _, runAll_hist Demo.cr false [(Demo.env [], Demo.hello (str "x") none), (Demo.env [], Demo.hello mAnonymous none)],
      ⟨_, rfl, rfl⟩, ⟨_, rfl, rfl⟩⟩⟩

/-- **C36** (partial) After an ABORT in answer to AUTHENTICATE, every later HELLO is refused, so the login can only be
completed for the HELLO already made, by an AUTHENTICATE that satisfies C30–C32. Missing: finality itself. -/
theorem C36_no_new_hello_partial {cr : Crypto} {static : Bool} {h1 h2 : List Call} {a : Call} {s : State}
    (hh : Hist cr static (h1 ++ a :: h2) s) (ha : a.answered .abort) (hk : a.msg.kind = .authenticate) :
    ∀ x ∈ h1, x.msg.kind = .hello → x.out = .err := by
  induction h1 generalizing s with
  | nil => simp
  | cons y h1 ih =>
    have hh0 := hh
    cases hh with
    | @call h s env m hh =>
      intro x hx hxk
      rcases List.mem_cons.1 hx with rfl | hx
      · have hprev := ih hh
        have hi := hist_inv hh
        cases m <;> cases hxk
        rename_i realm authID ms ex roles
        by_cases hst : s.st = .none
        · exfalso
          simp only [Inv, hst] at hi
          obtain ⟨s2, hh2⟩ := hist_append (h1 := h1) hh
          obtain ⟨m', hm', -⟩ := ha
          obtain ⟨b1, c, b2, rfl, _, cm, hc, hck⟩ := (C35_authenticate_after_challenge hh2).1 m' hk hm'
          have := hi.2 c (by simp) cm hc
          rw [this] at hck; cases hck
        · by_cases hst' : s.st = .welcomeSent
          · simp [callOf, recv, hst']
          · simp [callOf, recv, hst', recvHello, hst]
      · exact ih hh x hx hxk

/-- The authenticator of this call never answers `(nil, nil)`, and its salted WAMP-CRA responses have a key length that is
not negative. -/
def GoodAuthn (env : Env) : Prop :=
  ∀ q, env.authn q ≠ .nilResp ∧
    ∀ r info, env.authn q = .ok r → r.cra = some info → info.salt ≠ [] → 0 ≤ info.keyLen

theorem craKey_ok (cr : Crypto) (i : CRAInfo) (h : i.salt ≠ [] → 0 ≤ i.keyLen) : ∃ k, craKey cr i = .ok k := by
  unfold craKey
  split
  · exact ⟨_, rfl⟩
  · next hs =>
    have := h hs
    unfold deriveCRAKey
    have hn : ¬ (if i.keyLen = 0 then (32 : Int) else i.keyLen) < 0 := by split <;> omega
    simp only [if_neg hn]
    exact ⟨_, rfl⟩

/-- **C37** (refuted) An authenticator that returns a (non-nil) salted WAMP-CRA response with a negative key length crashes
the acceptor on every AUTHENTICATE; and one that returns neither response nor error crashes it on a HELLO. -/
theorem C37_crashes :
    (∃ c1 c2 s, Hist Demo.cr false [c2, c1] s ∧ c2.out = .panic ∧ (∀ q, c1.env.authn q ≠ .nilResp) ∧
      (∀ q, c2.env.authn q ≠ .nilResp)) ∧
    (∃ c s, Hist Demo.cr false [c] s ∧ c.out = .panic) := by
  let env : Env := ⟨[mCRA], fun _ => .ok ⟨str "joe", str "user", some ⟨str "s3", str "salt", 10, -1⟩⟩, 77, some [], none⟩
  let env2 : Env := ⟨[mAnonymous], fun _ => .nilResp, 77, some [], none⟩
  refine ⟨⟨_, _, _, runAll_hist Demo.cr false [(env, Demo.hello mCRA none), (env, .authenticate [] none)], rfl, ?_, ?_⟩,
    ⟨_, _, runAll_hist Demo.cr false [(env2, Demo.hello mAnonymous none)], rfl⟩⟩ <;> intro q h <;> cases h

/-- **C37** (partial) With authenticators that are `GoodAuthn` in every call, no sequence of messages crashes the acceptor.
Missing: authenticators that return a negative key length with a salt. -/
theorem C37_no_crash_partial {cr : Crypto} {static : Bool} {h : List Call} {s : State} (hh : Hist cr static h s)
    (hg : ∀ c ∈ h, GoodAuthn c.env) : ∀ c ∈ h, c.out ≠ .panic := by
  induction hh with
  | new => simp
  | @call h s env m hh ih =>
    have hgc : GoodAuthn env := hg (callOf cr env s m) (by simp)
    have hgh : ∀ c ∈ h, GoodAuthn c.env := fun c hc => hg c (by simp [hc])
    intro c hc
    rcases List.mem_cons.1 hc with rfl | hc
    · have hi := hist_inv hh
      simp only [callOf, recv]
      split
      · simp
      · next hst =>
        cases m
        case hello realm authID ms ex roles =>
          simp only
          have hnn := fun q => (hgc q).1
          intro hp
          revert hp
          fun_cases recvHello env s realm authID ms ex
          all_goals simp_all [sendWelcome]
        case authenticate sig ex =>
          simp only
          by_cases hcs : s.st = .challengeSent
          · simp only [Inv, hcs] at hi
            obtain ⟨-, h1, c, h2, realm, authID, ms, hex, rfl, _, _, _, _, hhello, _, hf⟩ := hi
            have hcm : c ∈ h1 ++ c :: h2 := by simp
            have hask := hist_asked hh c hcm
            have hgc' := hgh c hcm
            have hsw : ∀ r e x, (sendWelcome s env.id (some r) e x).res ≠ .panic := by
              intro r e x; simp [sendWelcome, hhello]
            simp only [recvAuthenticate, hcs, ne_eq, not_true, if_false, hhello]
            rcases hf with ⟨hm, _⟩ | ⟨hm, r, info, ha, hri, hresp, _⟩ | ⟨hm, pk, a, _, ha, hreq, hra, _⟩
            · simp only [hm, if_true]
              cases hx : env.authn (newTicketRequest realm authID hex sig) with
              | err t => simp
              | nilResp => exact absurd hx (hgc _).1
              | ok r => exact hsw r _ _
            · obtain ⟨k, hk⟩ := craKey_ok cr info fun hs => (hgc' _).2 r info (hask _ _ ha) hri hs
              have hnt : mCRA ≠ mTicket := by decide
              simp only [hm, if_neg hnt, if_true, hresp, Option.bind_some, hri, hk]
              split
              · exact hsw r _ _
              · simp
            · have hnt : mCryptoSign ≠ mTicket := by decide
              have hnc : mCryptoSign ≠ mCRA := by decide
              have hpk : (newCryptoSignRequest realm authID hex pk).publicKey = some pk := rfl
              simp only [hm, if_neg hnt, if_neg hnc, if_true, hreq, Option.bind_some, hpk]
              rcases hra with ⟨rfl, _⟩ | ⟨r, rfl, hr⟩
              · exact absurd (hask _ _ ha) (hgc' _).1
              · cases hexDecode pk with
                | none => simp
                | some key =>
                  simp only [hr]
                  split
                  · exact hsw r _ _
                  · simp
          · simp [recvAuthenticate, hcs]
        all_goals simp
    · exact ih hgh c hc

example : GoodAuthn (Demo.env []) := by
  intro q; refine ⟨by simp [Demo.env], ?_⟩
  intro r info h1 h2 _
  simp only [Demo.env, AuthOut.ok.injEq] at h1; subst h1; cases h2; decide

/-- With the default authenticator (acceptor.go:35-47) every WELCOME is for the anonymous identity. -/
theorem C30_default_only_anonymous {cr : Crypto} {static : Bool} {h : List Call} {w : Call} {s : State} {id : Nat} {d : GoMap}
    (hh : Hist cr static (w :: h) s) (hw : w.out = .ok (.welcome id d))
    (henv : ∀ c ∈ w :: h, c.env.methods = defaultMethods ∧ c.env.authn = defaultAuthn) :
    d.get (str "authid") = some (.str mAnonymous) ∧ d.get (str "authrole") = some (.str mAnonymous) ∧
    d.get (str "authmethod") = some (.named mAnonymous) := by
  obtain ⟨later, c, earlier, realm, authID, ms, ex, method, he, _, _, hsel, a, ha, req, r, _, happ, hasks, _, f2, f3, f4⟩ :=
    C30_welcome_approved hh hw
  have ham : a ∈ w :: h := by
    rw [he]; rcases List.mem_append.1 ha with h' | h'
    · simp [h']
    · simp at h'; simp [h']
  rw [(henv a ham).2] at happ
  unfold defaultAuthn at happ
  split at happ
  · cases happ
  · next hm =>
    cases happ
    have : method = mAnonymous := by rw [← hasks.2.2.2]; exact Decidable.not_not.1 hm
    subst this
    exact ⟨f2, f3, f4⟩

end Wamp.Acceptor
