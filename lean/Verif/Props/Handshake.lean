import Verif.Spec.Handshake
import Verif.Props.Wire
import Verif.Props.Auth
/-!
# C42: the whole login
-/
namespace Wamp.Handshake
open Spec

variable {norm : Val → Val}

theorem select_one (ms : List Str) (m : Str) (h : m ∈ ms) (hne : m ≠ []) : selectAuthMethod ms [m] = some m := by
  simp [selectAuthMethod, h, hne]

/-- What the joiner does with the WELCOME bytes. -/
theorem joiner_welcome (hn : WireNorm norm) (hnamed : ∀ s, norm (.named s) = .str s) {c : Codec} (a : Joiner.Auth)
    (s : Joiner.State) (hs : s.st = .helloSent ∨ s.st = .authenticateSent) (id : Nat) (realm authID role method : Str)
    {b : Str} (hd : c.deserialize b =
      .ok (received norm (newWelcome id (some (Acceptor.welcomeDetails realm authID role method))))) :
    ∃ roles, Joiner.receive c a s b =
      ({ s with details := some (newSessionDetails id s.realm authID role method s.static roles none), st := .joined },
       .ok none) := by
  have g : ∀ k, GoMap.get (some (onDict norm (Acceptor.welcomeDetails realm authID role method))) k =
      (dget (Acceptor.welcomeDetails realm authID role method) k).map norm := fun k => dget_map norm _ k
  have g1 : GoMap.get (some (onDict norm (Acceptor.welcomeDetails realm authID role method))) (str "authid") =
      some (.str authID) := by rw [g, ← hn.str]; rfl
  have g2 : GoMap.get (some (onDict norm (Acceptor.welcomeDetails realm authID role method))) (str "authrole") =
      some (.str role) := by rw [g, ← hn.str]; rfl
  have g3 : GoMap.text (some (onDict norm (Acceptor.welcomeDetails realm authID role method))) (str "authmethod") =
      method := by
    have : GoMap.get (some (onDict norm (Acceptor.welcomeDetails realm authID role method))) (str "authmethod") =
      some (.str method) := by rw [g, ← hnamed]; rfl
    simp [GoMap.text, this, Val.asStr?]
  have hs' : ¬ (s.st ≠ .helloSent ∧ s.st ≠ .authenticateSent) := by
    rintro ⟨h1, h2⟩; rcases hs with h | h <;> contradiction
  refine ⟨((GoMap.get (some (onDict norm (Acceptor.welcomeDetails realm authID role method))) (str "roles")).bind Val.asMap?).getD none, ?_⟩
  simp only [Joiner.receive, hd, received, newWelcome, onMap, Option.map_some, Joiner.recv, Joiner.recvWelcome, if_neg hs',
    g1, g2, g3, Option.bind_some, Val.asStr?, Res.bind]

/-- Both ends hold details that agree. -/
def Agree (o : Option (Acceptor.State × Joiner.State × Bool)) (id : Nat) (realm authID authRole method : Str) : Prop :=
  ∃ as js da dj, o = some (as, js, true) ∧ Acceptor.sessionDetails as = .ok da ∧ Joiner.sessionDetails js = .ok dj ∧
    da.id = id ∧ dj.id = id ∧ da.realm = realm ∧ dj.realm = realm ∧ da.authID = authID ∧ dj.authID = authID ∧
    da.authRole = authRole ∧ dj.authRole = authRole ∧ da.authMethod = method ∧ dj.authMethod = method

/-- Last round: the acceptor welcomes, the joiner joins. -/
theorem finish (hn : WireNorm norm) (hnamed : ∀ s, norm (.named s) = .str s) {c : Codec} {cr : Crypto} (a : Joiner.Auth)
    {env : Acceptor.Env} {envs : List Acceptor.Env} {as : Acceptor.State} {js : Joiner.State} {data : Str} {m : Msg}
    {realm method : Str} {r : AuthResp} {x : GoMap} {q : Option (AuthReq × AuthOut)} {as1 : Acceptor.State}
    (hd : c.deserialize data = .ok m)
    (hr : Acceptor.recv cr env as m = Acceptor.sendWelcome as1 env.id (some r) x q)
    (h1 : ∃ h, as1.hello = some h ∧ h.realm = realm) (h2 : as1.authMethod = method)
    {b : Str} (hb1 : c.serialize (newWelcome env.id (some (Acceptor.welcomeDetails realm r.authID r.authRole method))) = .ok b)
    (hb2 : c.deserialize b = .ok (received norm (newWelcome env.id (some (Acceptor.welcomeDetails realm r.authID r.authRole method)))))
    (hj : js.st = .helloSent ∨ js.st = .authenticateSent) (hjr : js.realm = realm) :
    Agree (exchange cr c a (env :: envs) as js data) env.id realm r.authID r.authRole method := by
  obtain ⟨h, hh, hrealm⟩ := h1
  obtain ⟨roles, hjoin⟩ := joiner_welcome hn hnamed a js hj env.id realm r.authID r.authRole method hb2
  have hsw : Acceptor.sendWelcome as1 env.id (some r) x q =
      { state := { as1 with
          details := some (newSessionDetails env.id realm r.authID r.authRole method as1.static (some routerRoles) x)
          st := .welcomeSent }
        res := .ok (newWelcome env.id (some (Acceptor.welcomeDetails realm r.authID r.authRole method)))
        asked := q } := by
    simp [Acceptor.sendWelcome, hh, hrealm, h2]
  refine ⟨{ as1 with
          details := some (newSessionDetails env.id realm r.authID r.authRole method as1.static (some routerRoles) x)
          st := .welcomeSent },
      { js with details := some (newSessionDetails env.id js.realm r.authID r.authRole method js.static roles none), st := .joined },
      _, _, ?_, rfl, rfl, rfl, rfl, rfl, hjr, rfl, rfl, rfl, rfl, rfl, rfl⟩
  simp only [exchange, Acceptor.receive, hd, hr, hsw, Res.bind, hb1, hjoin]
  rfl

/-- First round of a login with a challenge. -/
theorem round {c : Codec} {cr : Crypto} (a : Joiner.Auth) {env : Acceptor.Env} {envs : List Acceptor.Env}
    {as as' : Acceptor.State} {js : Joiner.State} {data b b' : Str} {m chal : Msg} {method sig : Str} {chx ex : GoMap}
    {q : Option (AuthReq × AuthOut)}
    (hd : c.deserialize data = .ok m) (hr : Acceptor.recv cr env as m = ⟨as', .ok chal, q⟩)
    (hb1 : c.serialize chal = .ok b) (hb2 : c.deserialize b = .ok (.challenge method chx))
    (hj : js.st = .helloSent) (ha : a.authenticate method chx = .ok (sig, ex))
    (hb' : c.serialize (newAuthenticate sig ex) = .ok b') :
    exchange cr c a (env :: envs) as js data =
      exchange cr c a envs as' { js with st := .authenticateSent } b' := by
  simp only [exchange, Acceptor.receive, hd, hr, Res.bind, hb1, Joiner.receive, hb2, Joiner.recv, hj, ne_eq, not_true,
    if_false, ha, hb']

/-- The login works over every format that keeps structure, strings and (up to `2^53`) numbers. -/
theorem login_agrees (hn : WireNorm norm) (hnamed : ∀ s, norm (.named s) = .str s)
    (hnat : ∀ n ≤ 2 ^ 53, asUInt64 (norm (.u64 n)) = some n)
    (hint : ∀ v : Int, -(2 ^ 53) ≤ v → v ≤ 2 ^ 53 → asInt (norm (.int .int v)) = some v)
    (cr : Crypto) (hc : SigScheme cr) (ok : List Val → Prop) (c : Codec) (hf : Faithful c norm ok)
    (realm : Str) (static : Bool) (env1 env2 : Acceptor.Env) (r : AuthResp) (ca : ClientAuth)
    (hid1 : env1.id ≤ 2 ^ 53) (hid2 : env2.id ≤ 2 ^ 53)
    (hm : ca.method ∈ env1.methods) (ha : Approves cr norm realm env1 env2 r ca)
    (hok : ∀ m id, id = env1.id ∨ id = env2.id → Crosses cr realm env1 id r ca m → ok m.marshal) :
    ∃ id, (id = env1.id ∨ id = env2.id) ∧
      Agree (login cr c (ca.toAuth cr) [env1, env2] realm static) id realm r.authID r.authRole ca.method := by
  have rt : ∀ m : Msg, ok m.marshal → Transmissible m → (∀ n ∈ ids m, n ≤ 2 ^ 53) →
      ∃ b, c.serialize m = .ok b ∧ c.deserialize b = .ok (received norm m) := by
    intro m h1 h2 h3
    refine roundtrip hn c ok hf m h1 h2 ?_
    intro n hx
    rcases List.mem_cons.1 hx with rfl | hx
    · exact hnat _ (type_le m)
    · exact hnat _ (h3 n hx)
  obtain ⟨hb, hhb1, hhb2⟩ := rt _ (hok _ _ (Or.inl rfl) (Or.inl rfl)) trivial (by simp [newHello, ids])
  have rw1 := rt _ (hok _ _ (Or.inl rfl) (Or.inr (Or.inr (Or.inr rfl))))
    (by simp [newWelcome, Transmissible]) (by simp [newWelcome, ids, hid1])
  have rw2 := rt _ (hok _ _ (Or.inr rfl) (Or.inr (Or.inr (Or.inr rfl))))
    (by simp [newWelcome, Transmissible]) (by simp [newWelcome, ids, hid2])
  have rauth : ∀ sig, Signature cr env1 r ca sig → ∃ b, c.serialize (newAuthenticate sig ca.authExtra) = .ok b ∧
      c.deserialize b = .ok (received norm (newAuthenticate sig ca.authExtra)) := fun sig hs =>
    rt _ (hok _ _ (Or.inl rfl) (Or.inr (Or.inr (Or.inl ⟨sig, hs, rfl⟩)))) trivial
      (by simp [newAuthenticate, ids])
  have hlogin : login cr c (ca.toAuth cr) [env1, env2] realm static =
      exchange cr c (ca.toAuth cr) [env1, env2] (Acceptor.init static)
        { Joiner.init realm static with st := .helloSent } hb := by
    have : Joiner.helloMsg (ca.toAuth cr) (Joiner.init realm static) =
      newHello realm ca.authID ca.authExtra (some clientRoles) (some [ca.method]) := rfl
    simp only [login, Joiner.sendHello, this, hhb1]
  rw [hlogin]
  have hsel : ca.method ≠ [] → selectAuthMethod env1.methods [ca.method] = some ca.method :=
    select_one _ _ hm
  -- the router's view of the HELLO
  have hrecv : ∀ env s, Acceptor.recv cr env s (received norm (newHello realm ca.authID ca.authExtra (some clientRoles) (some [ca.method]))) =
      if s.st = .welcomeSent then ⟨s, .err, none⟩ else
      Acceptor.recvHello env s realm ca.authID (some [ca.method]) (seen norm ca.authExtra) := by
    intro env s
    simp only [newHello, received, Acceptor.recv, seen]
    cases ca.authExtra <;> rfl
  cases ca with
  | anonymous authID e =>
    obtain ⟨b, hb1, hb2⟩ := rw1
    refine ⟨env1.id, Or.inl rfl, ?_⟩
    refine finish hn hnamed _ (x := none) (q := some (newRequest realm authID (seen norm e) mAnonymous, .ok r)) (as1 := { Acceptor.init static with authMethod := mAnonymous, hello := some ⟨realm, authID, seen norm e⟩ })
      hhb2 ?_ ⟨_, rfl, rfl⟩ rfl hb1 hb2 (Or.inl rfl) rfl
    · rw [hrecv]
      have hs := hsel (by simp [ClientAuth.method, mAnonymous, str])
      have ha' : env1.authn (newRequest realm authID (seen norm e) mAnonymous) = .ok r := ha
      simp only [ClientAuth.method] at hs
      simp only [Acceptor.init, ClientAuth.method, ClientAuth.authID, ClientAuth.authExtra, Acceptor.recvHello, reduceCtorEq, if_false, ne_eq, not_true,
        Option.getD_some, hs, if_true, ha']
  | ticket authID e t =>
    obtain ⟨b, hb1, hb2⟩ := rw2
    obtain ⟨ab, hab1, hab2⟩ := rauth t rfl
    obtain ⟨chb, hch1, hch2⟩ := rt _ (hok _ _ (Or.inl rfl) (Or.inr (Or.inl ⟨[], rfl, rfl⟩)))
      (by simp [newChallenge, Transmissible]) (by simp [newChallenge, ids])
    refine ⟨env2.id, Or.inr rfl, ?_⟩
    rw [round (cr := cr) (as' := { Acceptor.init static with authMethod := mTicket, hello := some ⟨realm, authID, seen norm e⟩, st := .challengeSent })
      (q := none) ((ClientAuth.ticket authID e t).toAuth cr) hhb2 ?_ hch1 hch2 rfl rfl hab1]
    · refine finish hn hnamed _ (x := seen norm e) (q := some (newTicketRequest realm authID (seen norm e) t, .ok r)) (as1 := { Acceptor.init static with authMethod := mTicket, hello := some ⟨realm, authID, seen norm e⟩, st := .challengeSent })
        hab2 ?_ ⟨_, rfl, rfl⟩ rfl hb1 hb2 (Or.inr rfl) rfl
      · have ha' : env2.authn (newTicketRequest realm authID (seen norm e) t) = .ok r := ha
        unfold seen at ha'
        simp only [newAuthenticate, received, Acceptor.recv, Acceptor.recvAuthenticate, reduceCtorEq, if_false, if_true,
          ne_eq, not_true, ClientAuth.authExtra, ha', seen]
    · rw [hrecv]
      have hs := hsel (by simp [ClientAuth.method, mTicket, str])
      simp only [ClientAuth.method] at hs
      simp only [Acceptor.init, ClientAuth.method, ClientAuth.authID, ClientAuth.authExtra, Acceptor.recvHello, reduceCtorEq, if_false, ne_eq, not_true,
        Option.getD_some, hs, if_true, show ¬ mTicket = mAnonymous by decide]
  | cra authID e secret =>
    obtain ⟨ha1, hch, salt, iters, keyLen, hcra, hi1, hi2, hk1, hk2⟩ := ha
    obtain ⟨ch, hch⟩ := Option.ne_none_iff_exists'.1 hch
    obtain ⟨b, hb1, hb2⟩ := rw2
    obtain ⟨chb, hch1, hch2⟩ := rt _ (hok _ _ (Or.inl rfl) (Or.inr (Or.inl ⟨_, ⟨ch, _, hch, hcra, rfl⟩, rfl⟩)))
      (by simp [newChallenge, Transmissible]) (by simp [newChallenge, ids])
    have hkey : ∃ key, craKey cr ⟨secret, salt, iters, keyLen⟩ = .ok key := by
      unfold craKey deriveCRAKey
      have hk0 : ¬ (if keyLen = 0 then 32 else keyLen) < 0 := by split <;> omega
      simp only [if_neg hk0]
      split <;> exact ⟨_, rfl⟩
    obtain ⟨key, hkey⟩ := hkey
    have hauth := C25_same_cra_key cr norm hn.str ⟨secret, salt, iters, keyLen⟩ (hint _ hi1 hi2)
      (hint _ (by simp only; omega) hk2) ch e
    rw [hkey] at hauth
    obtain ⟨ab, hab1, hab2⟩ := rauth (signCRA cr ch key) ⟨ch, _, key, hch, hcra, hkey, rfl⟩
    refine ⟨env2.id, Or.inr rfl, ?_⟩
    rw [round (cr := cr) (as' := { Acceptor.init static with authMethod := mCRA, hello := some ⟨realm, authID, seen norm e⟩, challenge := ch, response := some r, st := .challengeSent })
      (q := some (newRequest realm authID (seen norm e) mCRA, .ok r)) ((ClientAuth.cra authID e secret).toAuth cr) hhb2 ?_ hch1 hch2 rfl hauth hab1]
    · refine finish hn hnamed _ (x := seen norm e) (q := none) (as1 := { Acceptor.init static with authMethod := mCRA, hello := some ⟨realm, authID, seen norm e⟩, challenge := ch, response := some r, st := .challengeSent })
        hab2 ?_ ⟨_, rfl, rfl⟩ rfl hb1 hb2 (Or.inr rfl) rfl
      · simp only [newAuthenticate, received, Acceptor.recv, Acceptor.recvAuthenticate, reduceCtorEq, if_false, if_true,
          ne_eq, not_true, ClientAuth.authExtra, seen, show ¬ mCRA = mTicket by decide, Option.bind_some, hcra, hkey,
          C23_cra_completeness]
    · rw [hrecv]
      have hs := hsel (by simp [ClientAuth.method, mCRA, str])
      have ha' : env1.authn (newRequest realm authID (seen norm e) mCRA) = .ok r := ha1
      simp only [ClientAuth.method] at hs
      simp only [Acceptor.init, ClientAuth.method, ClientAuth.authID, ClientAuth.authExtra, Acceptor.recvHello, reduceCtorEq, if_false, ne_eq, not_true,
        Option.getD_some, hs, if_true, show ¬ mCRA = mAnonymous by decide, show ¬ mCRA = mTicket by decide, ha', hcra, hch]
  | cryptosign authID e seed =>
    obtain ⟨hlen, hpk, ha1, random, hrl, hch⟩ := ha
    obtain ⟨b, hb1, hb2⟩ := rw2
    obtain ⟨chb, hch1, hch2⟩ := rt _ (hok _ _ (Or.inl rfl) (Or.inr (Or.inl ⟨_, ⟨_, hch, rfl⟩, rfl⟩)))
      (by simp [newChallenge, Transmissible]) (by simp [newChallenge, ids])
    obtain ⟨sig, hsig, hver⟩ := C26_cryptosign_completeness cr hc seed hlen (hexEncode random) random (hexDecode_encode _) hrl
    obtain ⟨ab, hab1, hab2⟩ := rauth sig ⟨_, hch, hsig⟩
    have hchx : ((ClientAuth.cryptosign authID e seed).toAuth cr).authenticate mCryptoSign
        (some (onDict norm [(str "challenge", .str (hexEncode random))])) = .ok (sig, e) := by
      have hg : GoMap.text (some (onDict norm [(str "challenge", .str (hexEncode random))])) (str "challenge") = hexEncode random := by
        simp [GoMap.text, GoMap.get, onDict, hn.str, dget, Val.asStr?]
      simp only [ClientAuth.toAuth, ClientAuth.authenticate, hg, hsig, Res.ofOption, Res.bind]
    have hpk' : (seen norm e).get (str "pubkey") = some (.str (hexEncode (cr.pubOfSeed seed))) := by
      cases e with
      | none => simp [GoMap.get] at hpk
      | some d =>
        have hpk2 : dget d (str "pubkey") = some (.str (hexEncode (cr.pubOfSeed seed))) := hpk
        have := dget_map norm d (str "pubkey")
        rw [hpk2, Option.map_some, hn.str] at this
        exact this
    have hpkne : hexEncode (cr.pubOfSeed seed) ≠ [] := by
      intro h
      have h2 := hexDecode_encode (cr.pubOfSeed seed)
      rw [h] at h2
      have h3 := hc.pub seed hlen
      have h4 : cr.pubOfSeed seed = [] := by simpa [hexDecode] using h2.symm
      rw [h4] at h3; simp at h3
    refine ⟨env2.id, Or.inr rfl, ?_⟩
    rw [round (cr := cr) (as' := { Acceptor.init static with authMethod := mCryptoSign, hello := some ⟨realm, authID, seen norm e⟩, request := some (newCryptoSignRequest realm authID (seen norm e) (hexEncode (cr.pubOfSeed seed))), challenge := hexEncode random, response := some r, st := .challengeSent })
      (q := some (newCryptoSignRequest realm authID (seen norm e) (hexEncode (cr.pubOfSeed seed)), .ok r))
      ((ClientAuth.cryptosign authID e seed).toAuth cr) hhb2 ?_ hch1 hch2 rfl hchx hab1]
    · refine finish hn hnamed _ (x := seen norm e) (q := none) (as1 := { Acceptor.init static with authMethod := mCryptoSign, hello := some ⟨realm, authID, seen norm e⟩, request := some (newCryptoSignRequest realm authID (seen norm e) (hexEncode (cr.pubOfSeed seed))), challenge := hexEncode random, response := some r, st := .challengeSent })
        hab2 ?_ ⟨_, rfl, rfl⟩ rfl hb1 hb2 (Or.inr rfl) rfl
      · simp only [newAuthenticate, received, Acceptor.recv, Acceptor.recvAuthenticate, reduceCtorEq, if_false, if_true,
          ne_eq, not_true, ClientAuth.authExtra, seen, show ¬ mCryptoSign = mTicket by decide, show ¬ mCryptoSign = mCRA by decide,
          Option.bind_some, newCryptoSignRequest, hexDecode_encode, hver, Option.getD_some]
    · rw [hrecv]
      have hs := hsel (by simp [ClientAuth.method, mCryptoSign, str])
      have ha' : env1.authn (newCryptoSignRequest realm authID (seen norm e) (hexEncode (cr.pubOfSeed seed))) = .ok r := ha1
      simp only [ClientAuth.method] at hs
      simp only [Acceptor.init, ClientAuth.method, ClientAuth.authID, ClientAuth.authExtra, Acceptor.recvHello, reduceCtorEq, if_false, ne_eq, not_true,
        Option.getD_some, hs, if_true, show ¬ mCryptoSign = mAnonymous by decide, show ¬ mCryptoSign = mTicket by decide,
        show ¬ mCryptoSign = mCRA by decide, hpk', Val.asStr?, hpkne, ha', hch]

/-- **C42** For each of the four methods, over JSON, CBOR and MsgPack: if the method is allowed and the server's
authenticator approves the client (`Approves`), then the exchange of bytes ends with the router reporting "welcomed" and both
ends holding session details with the same session ID, realm, authid, authrole and auth method, which are those of the
joiner's realm, the authenticator's response and the client's method. -/
theorem C42_honest_login (cr : Crypto) (hc : SigScheme cr) (ok : List Val → Prop) (c : Codec)
    (norm : Val → Val) (hnorm : norm = jsonWire ∨ norm = cborWire ∨ norm = msgpackWire) (hf : Faithful c norm ok)
    (realm : Str) (static : Bool) (env1 env2 : Acceptor.Env) (r : AuthResp) (ca : ClientAuth)
    (hid1 : env1.id ≤ 2 ^ 53) (hid2 : env2.id ≤ 2 ^ 53)
    (hm : ca.method ∈ env1.methods) (ha : Approves cr norm realm env1 env2 r ca)
    (hok : ∀ m id, id = env1.id ∨ id = env2.id → Crosses cr realm env1 id r ca m → ok m.marshal) :
    ∃ id, (id = env1.id ∨ id = env2.id) ∧
      Agree (login cr c (ca.toAuth cr) [env1, env2] realm static) id realm r.authID r.authRole ca.method := by
  have lim : ∀ v : Int, -(2 ^ 53) ≤ v → v ≤ 2 ^ 53 → -(2 ^ 63) ≤ v ∧ v < 2 ^ 63 := by intro v h1 h2; omega
  rcases hnorm with rfl | rfl | rfl
  · exact login_agrees (wire_norm _) (fun s => by simp [wire]) C15_json_ids
      (fun v h1 h2 => (C25_numbers_survive v (lim v h1 h2).1 (lim v h1 h2).2).2.2 h1 h2)
      cr hc ok c hf realm static env1 env2 r ca hid1 hid2 hm ha hok
  · exact login_agrees (wire_norm _) (fun s => by simp [wire]) (fun n _ => cbor_ids n)
      (fun v h1 h2 => (C25_numbers_survive v (lim v h1 h2).1 (lim v h1 h2).2).1)
      cr hc ok c hf realm static env1 env2 r ca hid1 hid2 hm ha hok
  · exact login_agrees (wire_norm _) (fun s => by simp [wire]) (fun n _ => msgpack_ids n)
      (fun v h1 h2 => (C25_numbers_survive v (lim v h1 h2).1 (lim v h1 h2).2).2.1)
      cr hc ok c hf realm static env1 env2 r ca hid1 hid2 hm ha hok

/-- **C42** with the responses a server's authenticator builds for WAMP-CRA: if it answers with `NewCRAResponse` for the secret that the
client was made with, or with `NewCRAResponseSalted` for that secret and any salt, iteration count and key length (up to 2^53), the client
gets in, under the authid and authrole of the response. -/
theorem C42_cra_responses (cr : Crypto) (hc : SigScheme cr) (ok : List Val → Prop) (c : Codec)
    (norm : Val → Val) (hnorm : norm = jsonWire ∨ norm = cborWire ∨ norm = msgpackWire) (hf : Faithful c norm ok)
    (realm : Str) (static : Bool) (env1 env2 : Acceptor.Env) (r : AuthResp) (authID secret aid role : Str) (e : GoMap)
    (hid1 : env1.id ≤ 2 ^ 53) (hid2 : env2.id ≤ 2 ^ 53) (hm : str "wampcra" ∈ env1.methods)
    (hr : r = newCRAResponse aid role secret ∨
      ∃ salt it len, -(2 ^ 53) ≤ it ∧ it ≤ 2 ^ 53 ∧ 0 ≤ len ∧ len ≤ 2 ^ 53 ∧ r = newCRAResponseSalted aid role secret salt it len)
    (ha : env1.authn ⟨str "wampcra", realm, authID, seen norm e, none, none⟩ = .ok r) (hch : env1.craChallenge ≠ none)
    (hok : ∀ m id, id = env1.id ∨ id = env2.id → Crosses cr realm env1 id r (newCRA authID secret e) m → ok m.marshal) :
    ∃ id, (id = env1.id ∨ id = env2.id) ∧
      Agree (login cr c ((newCRA authID secret e).toAuth cr) [env1, env2] realm static) id realm aid role (str "wampcra") := by
  have happ : Approves cr norm realm env1 env2 r (newCRA authID secret e) := by
    rcases hr with rfl | ⟨salt, it, len, h1, h2, h3, h4, rfl⟩
    · exact ⟨ha, hch, [], 0, 0, rfl, by decide, by decide, by decide, by decide⟩
    · exact ⟨ha, hch, salt, it, len, rfl, h1, h2, h3, h4⟩
  have h := C42_honest_login cr hc ok c norm hnorm hf realm static env1 env2 r (newCRA authID secret e) hid1 hid2 hm happ hok
  have e1 : r.authID = aid ∧ r.authRole = role := by
    rcases hr with rfl | ⟨salt, it, len, -, -, -, -, rfl⟩ <;> exact ⟨rfl, rfl⟩
  rw [e1.1, e1.2] at h
  exact h

/-! ### A case that meets the hypotheses -/

/-- For every finite set of messages there is a codec that is faithful on it. -/
theorem codec_exists (norm : Val → Val) (L : List (List Val)) : ∃ c : Codec, Faithful c norm (· ∈ L) := by
  classical
  refine ⟨⟨fun l => if h : ∃ i, L[i]? = some l then some (List.replicate h.choose 0) else none,
    fun b => L[b.length]?.map (·.map norm)⟩, ?_⟩
  intro l hl
  have h : ∃ i, L[i]? = some l := List.getElem?_of_mem hl
  exact ⟨List.replicate h.choose 0, by simp only [dif_pos h], by
    simp only [List.length_replicate]; rw [h.choose_spec]; rfl⟩

namespace Demo
def cr : Crypto := ⟨fun k m => k ++ m, fun p s _ _ => p ++ s, id, fun s _ => s ++ s, fun p _ s => s == p ++ p⟩
def client : ClientAuth := newCRA (str "joe") (str "secret") none
def resp : AuthResp := newCRAResponseSalted (str "joe") (str "user") (str "secret") (str "salt") 100 32
def env : Acceptor.Env := ⟨[str "ticket", str "wampcra"], fun r => if r.authID = str "joe" then .ok resp else .err [], 77,
  some (str "nonce"), none⟩
end Demo

example : SigScheme Demo.cr := ⟨fun s h => h, fun s _ h => by simp [Demo.cr, h], fun s _ _ => by simp [Demo.cr]⟩

/-- A salted WAMP-CRA login meets the hypotheses of `C42_honest_login`. -/
example : ∃ ok c, Faithful c jsonWire ok ∧ Demo.client.method ∈ Demo.env.methods ∧
    Approves Demo.cr jsonWire (str "realm1") Demo.env Demo.env Demo.resp Demo.client ∧
    ∀ m, Crosses Demo.cr (str "realm1") Demo.env 77 Demo.resp Demo.client m → ok m.marshal := by
  obtain ⟨c, hc⟩ := codec_exists jsonWire
    [(newHello (str "realm1") Demo.client.authID Demo.client.authExtra (some clientRoles) (some [Demo.client.method])).marshal,
     (newChallenge Demo.client.method (some (Acceptor.craExtra (str "nonce") ⟨str "secret", str "salt", 100, 32⟩))).marshal,
     (newAuthenticate (signCRA Demo.cr (str "nonce") (b64Encode (str "secretsalt"))) none).marshal,
     (newWelcome 77 (some (Acceptor.welcomeDetails (str "realm1") (str "joe") (str "user") mCRA))).marshal]
  refine ⟨_, c, hc, by decide, ⟨rfl, by decide, str "salt", 100, 32, rfl, by decide, by decide, by decide, by decide⟩, ?_⟩
  rintro m (rfl | ⟨x, ⟨ch, info, h1, h2, rfl⟩, rfl⟩ | ⟨sig, ⟨ch, info, key, h1, h2, h3, rfl⟩, rfl⟩ | rfl)
  · simp
  · cases h1; cases h2; simp
  · cases h1; cases h2; cases h3
    exact List.mem_cons_of_mem _ (List.mem_cons_of_mem _ List.mem_cons_self)
  · simp [Demo.resp, newCRAResponseSalted, Demo.client, newCRA, ClientAuth.method]

end Wamp.Handshake
