import Verif.Spec.Challenge
import Verif.Lemmas.Json
import Verif.Props.Acceptor
import Verif.Props.Encoding
import Verif.Props.Zone
import Verif.Props.Wire
/-!
# C87, C98, C99: timestamps and WAMP-CRA challenges
-/
namespace Wamp
open Spec Json Cbor Acceptor

/-! ### Timestamps -/

theorem digits2_read : ∀ n : Fin 100, ∃ a b, digits2 n.val = [a, b] ∧ number2 a b = some n.val := by
  have : ∀ n : Fin 100, number2 (UInt8.ofNat (48 + n.val / 10 % 10)) (UInt8.ofNat (48 + n.val % 10)) = some n.val := by decide +kernel
  exact fun n => ⟨_, _, rfl, this n⟩

/-- **C87** A timestamp says which date, time and zone it was made from: reading `ISO8601(t)` gives back the fields of `t` (the zone in
minutes). -/
theorem C87_timestamp (t : Clock) (h : Clock.sane t) :
    readTime (iso8601 t) = some ((t.year, t.month, t.day), (t.hour, t.minute, t.second), t.offset.tdiv 60) := by
  obtain ⟨h1, h2, h3, h4, h5, h6, h7, h8⟩ := h
  obtain ⟨y3, y2, a1, a2⟩ := digits2_read ⟨t.year / 100, by omega⟩
  obtain ⟨y1, y0, b1, b2⟩ := digits2_read ⟨t.year % 100, by omega⟩
  obtain ⟨m1, m0, c1, c2⟩ := digits2_read ⟨t.month, h2⟩
  obtain ⟨t1, t0, d1, d2⟩ := digits2_read ⟨t.day, h3⟩
  obtain ⟨u1, u0, e1, e2⟩ := digits2_read ⟨t.hour, h4⟩
  obtain ⟨n1, n0, f1, f2⟩ := digits2_read ⟨t.minute, h5⟩
  obtain ⟨s1, s0, g1, g2⟩ := digits2_read ⟨t.second, h6⟩
  simp only at a1 a2 b1 b2 c1 c2 d1 d2 e1 e2 f1 f2 g1 g2
  have hz := C87_zone t.offset h7 h8
  simp only [iso8601, localTime, a1, b1, c1, d1, e1, f1, g1, show str "-" = [45] from rfl, show str "T" = [84] from rfl,
    show str ":" = [58] from rfl, List.cons_append, List.nil_append, readTime, a2, b2, c2, d2, e2, f2, g2, hz, and_self, if_true]
  congr 3
  omega

example : iso8601 ⟨2024, 5, 9, 23, 4, 0, -12600⟩ = str "2024-05-09T23:04:00-0330" := by decide +kernel
example : Clock.sane ⟨2024, 5, 9, 23, 4, 0, -12600⟩ := by unfold Clock.sane; decide

/-! ### What a challenge says -/

/-- The text of a challenge. -/
def challengeText (nonce now authid authrole provider : Str) (session : Nat) : Str :=
  0x7b :: (commas [quote (str "authid") ++ 0x3a :: quote authid, quote (str "authmethod") ++ 0x3a :: quote mCRA,
    quote (str "authprovider") ++ 0x3a :: quote provider, quote (str "authrole") ++ 0x3a :: quote authrole,
    quote (str "nonce") ++ 0x3a :: quote nonce, quote (str "session") ++ 0x3a :: decimal session,
    quote (str "timestamp") ++ 0x3a :: quote now] ++ [0x7d])

theorem generate_text (d : Draw) (b : Str) (hb : d.nonce = some b) (authid authrole provider : Str) :
    generateCRAChallenge d authid authrole provider =
      some (challengeText (b64Encode b) (iso8601 d.now) authid authrole provider d.session.toNat) := by
  simp only [generateCRAChallenge, hb, craData, Json.enc, Json.encM, Option.map_some]
  rfl

theorem read_text (levels : Nat) (nonce now authid authrole provider : Str) (session : Nat) (hs : session < 2 ^ 64) (rest : Str) :
    Json.dec (levels + 1) (challengeText nonce now authid authrole provider session ++ rest) =
      some (.map [(str "authid", .str (clean authid)), (str "authmethod", .str (clean mCRA)), (str "authprovider", .str (clean provider)),
        (str "authrole", .str (clean authrole)), (str "nonce", .str (clean nonce)), (str "session", .f64 (f64OfNat session)),
        (str "timestamp", .str (clean now))], rest) := by
  have hk : sortedKeys [(str "authid", .nil), (str "authmethod", .nil), (str "authprovider", .nil), (str "authrole", .nil),
    (str "nonce", .nil), (str "session", .nil), (str "timestamp", .nil)] = true := by decide +kernel
  have hd := dec_map levels [(str "authid", quote authid, Val.str (clean authid)), (str "authmethod", quote mCRA, .str (clean mCRA)),
    (str "authprovider", quote provider, .str (clean provider)), (str "authrole", quote authrole, .str (clean authrole)),
    (str "nonce", quote nonce, .str (clean nonce)), (str "session", decimal session, .f64 (f64OfNat session)),
    (str "timestamp", quote now, .str (clean now))] (hk.symm ▸ rfl)
  rw [challengeText]
  simp only [List.map_cons, List.map_nil] at hd
  refine hd ?_ rest
  intro e he
  have k1 : validUtf8 (str "authid") = true := by decide +kernel
  have k2 : validUtf8 (str "authmethod") = true := by decide +kernel
  have k3 : validUtf8 (str "authprovider") = true := by decide +kernel
  have k4 : validUtf8 (str "authrole") = true := by decide +kernel
  have k5 : validUtf8 (str "nonce") = true := by decide +kernel
  have k6 : validUtf8 (str "session") = true := by decide +kernel
  have k7 : validUtf8 (str "timestamp") = true := by decide +kernel
  have hq : ∀ s, Reads (Json.dec levels) (quote s) (.str (clean s)) := fun s => reads_quoted levels (escape s) (clean s) (unescape_escape s)
  simp only [List.mem_cons, List.not_mem_nil, or_false] at he
  rcases he with rfl | rfl | rfl | rfl | rfl | rfl | rfl
  · exact ⟨k1, hq _⟩
  · exact ⟨k2, hq _⟩
  · exact ⟨k3, hq _⟩
  · exact ⟨k4, hq _⟩
  · exact ⟨k5, hq _⟩
  · exact ⟨k6, reads_number levels _ _ (natural_text session hs).1 (natural_text session hs).2⟩
  · exact ⟨k7, hq _⟩

/-- Plain text is left alone. -/
theorem clean_plain (s : Str) (h : s.all plain = true) : clean s = s := by
  induction s with
  | nil => rfl
  | cons c s ih =>
    simp only [List.all_cons, Bool.and_eq_true, plain, decide_eq_true_eq] at h
    rw [clean.eq_def]
    simp only [h.1.2.2.2, if_true]
    rw [ih (by simpa [plain] using h.2)]

theorem iso8601_plain (t : Clock) (h : Clock.sane t) : (iso8601 t).all plain = true := by
  have h2 : ∀ n, (digits2 n).all plain = true := by
    intro n
    have : ∀ n : Fin 10, plain (UInt8.ofNat (48 + n.val)) = true := by decide +kernel
    simp only [digits2, List.all_cons, List.all_nil, this ⟨n / 10 % 10, by omega⟩, this ⟨n % 10, by omega⟩, Bool.and_self]
  have h3 : ∀ n, n < 100 → (pad2 n).all plain = true := by
    intro n hn
    have : ∀ n : Fin 100, (pad2 n.val).all plain = true := by decide +kernel
    exact this ⟨n, hn⟩
  have h4 : (zoneSuffix t.offset).all plain = true := by
    obtain ⟨-, -, -, -, -, -, h7, h8⟩ := h
    unfold zoneSuffix
    split
    · decide +kernel
    · split
      · rw [List.all_append, List.all_append, h3 _ (by omega), h3 _ (by omega)]; decide +kernel
      · rw [List.all_append, List.all_append, h3 _ (by omega), h3 _ (by omega)]; decide +kernel
  have m : (str "-").all plain = true ∧ (str "T").all plain = true ∧ (str ":").all plain = true := by decide +kernel
  simp only [iso8601, localTime, List.all_append, h2, h4, m, Bool.and_self]

/-- **C98** Unless the random source fails a challenge is made, and it is a JSON object, followed by nothing, that says who logs in (up to
bytes that are not UTF-8), with which role and provider, when, and with which nonce and session number. -/
theorem C98_content (d : Draw) (authid authrole provider : Str) :
    (d.nonce = none → generateCRAChallenge d authid authrole provider = none) ∧
    ∀ b, d.nonce = some b → ∃ ch m, generateCRAChallenge d authid authrole provider = some ch ∧
      Json.dec 10000 ch = some (.map m, []) ∧
      dget m (str "authid") = some (.str (clean authid)) ∧ dget m (str "authrole") = some (.str (clean authrole)) ∧
      dget m (str "authprovider") = some (.str (clean provider)) ∧ dget m (str "authmethod") = some (.str (str "wampcra")) ∧
      dget m (str "nonce") = some (.str (b64Encode b)) ∧ dget m (str "session") = some (.f64 (f64OfNat d.session.toNat)) ∧
      dget m (str "timestamp") = some (.str (clean (iso8601 d.now))) ∧
      (Clock.sane d.now → clean (iso8601 d.now) = iso8601 d.now) := by
  constructor
  · intro h; simp [generateCRAChallenge, h]
  intro b hb
  have hr := read_text 9999 (b64Encode b) (iso8601 d.now) authid authrole provider d.session.toNat d.session.toNat_lt []
  rw [List.append_nil, clean_plain _ (b64Encode_plain b), show clean mCRA = str "wampcra" by decide +kernel] at hr
  exact ⟨_, _, generate_text d b hb authid authrole provider, hr, rfl, rfl, rfl, rfl, rfl, rfl, rfl,
    fun h => clean_plain _ (iso8601_plain _ h)⟩

/-- **C98** Two challenges with the same text were made with the same nonce, for the same authid and role (as UTF-8 text), with the same
session number (up to 2^53) at the same time. -/
theorem C98_distinct (d d' : Draw) (authid authrole provider authid' authrole' provider' : Str) (ch : Str)
    (h : generateCRAChallenge d authid authrole provider = some ch) (h' : generateCRAChallenge d' authid' authrole' provider' = some ch) :
    (∃ b, d.nonce = some b ∧ d'.nonce = some b) ∧ clean authid = clean authid' ∧ clean authrole = clean authrole' ∧
    clean provider = clean provider' ∧ (d.session.toNat ≤ 2 ^ 53 → d'.session.toNat ≤ 2 ^ 53 → d.session = d'.session) ∧
    clean (iso8601 d.now) = clean (iso8601 d'.now) := by
  have get : ∀ d : Draw, ∀ x y z, generateCRAChallenge d x y z = some ch → ∃ b, d.nonce = some b := by
    intro d x y z h
    cases hb : d.nonce with
    | none => rw [(C98_content d x y z).1 hb] at h; cases h
    | some b => exact ⟨b, rfl⟩
  obtain ⟨b, hb⟩ := get d _ _ _ h
  obtain ⟨b', hb'⟩ := get d' _ _ _ h'
  obtain ⟨c, m, e1, e2, f1, f2, f3, f4, f5, f6, f7, -⟩ := (C98_content d authid authrole provider).2 b hb
  obtain ⟨c', m', e1', e2', f1', f2', f3', f4', f5', f6', f7', -⟩ := (C98_content d' authid' authrole' provider').2 b' hb'
  rw [h] at e1
  rw [h'] at e1'
  have q := Option.some.inj e1
  have q' := Option.some.inj e1'
  rw [← q] at e2
  rw [← q', e2] at e2'
  have q := Option.some.inj e2'
  simp only [Prod.mk.injEq, Val.map.injEq, and_true] at q
  subst q
  rw [f1] at f1'; rw [f2] at f2'; rw [f3] at f3'; rw [f5] at f5'; rw [f6] at f6'; rw [f7] at f7'
  have inj : ∀ {x y : Str}, some (Val.str x) = some (Val.str y) → x = y := by intro x y h; cases h; rfl
  refine ⟨?_, inj f1', inj f2', inj f3', ?_, inj f7'⟩
  · refine ⟨b, hb, ?_⟩
    have := congrArg b64Groups (inj f5')
    rw [b64Groups_encode, b64Groups_encode] at this
    rw [hb', ← this]
  · intro g g'
    have := congrArg (fun v => v.bind asUInt64) f6'
    simp only [Option.bind_some] at this
    have k := C15_json_ids d.session.toNat g
    have k' := C15_json_ids d'.session.toNat g'
    simp only [jsonWire, wire, jsonLeaf] at k k'
    rw [k, k'] at this
    exact UInt64.toNat_inj.1 (Option.some.inj this)

/-! ### Replay -/

/-- The challenge text of a WAMP-CRA CHALLENGE is the one drawn in that call. -/
theorem challenge_drawn (cr : Crypto) (env : Env) (s : State) (m : Msg) (extra : GoMap) (ch : Str)
    (h : (recv cr env s m).res = .ok (.challenge mCRA extra)) (hc : extra.get (str "challenge") = some (.str ch)) :
    env.craChallenge = some ch := by
  have hw : ∀ (s' : State) id r e x a b, (sendWelcome s' id r e x).res ≠ .ok (.challenge a b) := by
    intro s' id r e x a b
    unfold sendWelcome
    split
    · simp [newWelcome]
    · simp
  have hx : ∀ c i, GoMap.get (some (craExtra c i)) (str "challenge") = some (.str c) := by
    intro c i
    unfold craExtra
    split <;> rfl
  unfold recv at h
  split at h
  · cases h
  · split at h
    · rename_i realm authID ms ex _
      revert h
      fun_cases recvHello env s realm authID ms ex
      all_goals intro h
      all_goals first
        | (exact (hw _ _ _ _ _ _ _ h).elim)
        | (cases h; done)
        | skip
      case case11 =>
        rename_i info _ c hcc _ _ _ _ _ _
        injection h with h
        injection h with h1 h2
        rw [← h2, hx] at hc
        cases hc
        exact hcc
    · rename_i sig ex
      revert h
      fun_cases recvAuthenticate cr env s sig ex
      all_goals intro h
      all_goals first
        | (exact (hw _ _ _ _ _ _ _ h).elim)
        | (cases h; done)
    · cases h

/-- Every call in a history comes from `recv`. -/
theorem hist_call {cr : Crypto} {static : Bool} {h : List Call} {s : State} (hh : Hist cr static h s) :
    ∀ c ∈ h, ∃ s', c.out = (recv cr c.env s' c.msg).res := by
  induction hh with
  | new => simp
  | @call h s env m _ ih =>
    intro c hc
    rcases List.mem_cons.1 hc with rfl | hc
    · exact ⟨s, rfl⟩
    · exact ih c hc

/-- The AUTHENTICATE behind a WAMP-CRA WELCOME answers the text that was generated for it. -/
theorem welcome_generated {cr : Crypto} {static : Bool} {h : List Call} {w : Call} {s : State} {id : Nat} {d : GoMap}
    (draw : Call → Draw) (hg : ∀ c ∈ h, Generated c (draw c))
    (hh : Hist cr static (w :: h) s) (hw : w.out = .ok (.welcome id d)) (hm : d.get (str "authmethod") = some (.named mCRA)) :
    ∃ sig aex c ch r key extra, w.msg = .authenticate sig aex ∧ c ∈ h ∧ c.out = .ok (.challenge mCRA extra) ∧
      extra.get (str "challenge") = some (.str ch) ∧ challengeFor (draw c) r = some ch ∧
      b64Decode sig = some (cr.hmac key ch) ∧
      d.get (str "authid") = some (.str r.authID) ∧ d.get (str "authrole") = some (.str r.authRole) := by
  obtain ⟨sig, aex, later, c, earlier, extra, ch, req, r, info, key, h1, rfl, -, h3, h4, h5, h6, h7, h8, h9, h10⟩ := C31_cra_binding hh hw hm
  have hmem : c ∈ later ++ c :: earlier := by simp
  obtain ⟨s', hs'⟩ := hist_call hh c (by simp)
  have hc := challenge_drawn cr c.env s' c.msg extra ch (hs' ▸ h3) h4
  exact ⟨sig, aex, c, ch, r, key, extra, h1, hmem, h3, h4, by rw [← hg c hmem req r h5, hc], h8, h9, h10⟩

/-- **C98** A signature cannot be replayed: if no nonce is drawn twice and MACs of different texts differ, then the AUTHENTICATE that
opened one WAMP-CRA session does not open another, whoever the users, whatever else happened on both connections. -/
theorem C98_no_replay {cr : Crypto} (hmac : ∀ k k' m m', cr.hmac k m = cr.hmac k' m' → m = m')
    {static static' : Bool} {h h' : List Call} {w w' : Call} {s s' : State} {id id' : Nat} {d d' : GoMap}
    (draw draw' : Call → Draw) (hg : ∀ c ∈ h, Generated c (draw c)) (hg' : ∀ c ∈ h', Generated c (draw' c))
    (fresh : ∀ c ∈ h, ∀ c' ∈ h', ∀ n, (draw c).nonce = some n → (draw' c').nonce ≠ some n)
    (hh : Hist cr static (w :: h) s) (hw : w.out = .ok (.welcome id d)) (hm : d.get (str "authmethod") = some (.named mCRA))
    (hh' : Hist cr static' (w' :: h') s') (hw' : w'.out = .ok (.welcome id' d')) (hm' : d'.get (str "authmethod") = some (.named mCRA))
    (sig sig' : Str) (ex ex' : GoMap) (hsig : w.msg = .authenticate sig ex) (hsig' : w'.msg = .authenticate sig' ex') : sig ≠ sig' := by
  obtain ⟨_, _, c, ch, r, key, _, h1, h2, -, -, h3, h4, -⟩ := welcome_generated draw hg hh hw hm
  obtain ⟨_, _, c', ch', r', key', _, g1, g2, -, -, g3, g4, -⟩ := welcome_generated draw' hg' hh' hw' hm'
  rw [hsig] at h1; cases h1
  rw [hsig'] at g1; cases g1
  rintro rfl
  rw [h4] at g4
  have := hmac _ _ _ _ (Option.some.inj g4)
  subst this
  obtain ⟨⟨b, hb, hb'⟩, -⟩ := C98_distinct _ _ _ _ _ _ _ _ _ h3 g3
  exact fresh c h2 c' g2 b hb hb'

/-! ### The challenge describes the login -/

/-- **C99** The challenge a user signed names the authid and the role that the session then has (in UTF-8), and WAMP-CRA.  Missing: the
session ID, see `C99_other_session`. -/
theorem C99_challenge_describes_partial {cr : Crypto} {static : Bool} {h : List Call} {w : Call} {s : State} {id : Nat} {d : GoMap}
    (draw : Call → Draw) (hg : ∀ c ∈ h, Generated c (draw c))
    (hh : Hist cr static (w :: h) s) (hw : w.out = .ok (.welcome id d)) (hm : d.get (str "authmethod") = some (.named mCRA)) :
    ∃ sig aex c extra ch key m authid authrole, w.msg = .authenticate sig aex ∧ c ∈ h ∧ c.out = .ok (.challenge mCRA extra) ∧
      extra.get (str "challenge") = some (.str ch) ∧ b64Decode sig = some (cr.hmac key ch) ∧
      Json.dec 10000 ch = some (.map m, []) ∧ dget m (str "authmethod") = some (.str mCRA) ∧
      d.get (str "authid") = some (.str authid) ∧ dget m (str "authid") = some (.str (clean authid)) ∧
      d.get (str "authrole") = some (.str authrole) ∧ dget m (str "authrole") = some (.str (clean authrole)) := by
  obtain ⟨sig, aex, c, ch, r, key, extra, h1, h2, h3, h4, h5, h6, h7, h8⟩ := welcome_generated draw hg hh hw hm
  cases hb : (draw c).nonce with
  | none =>
    have := (C98_content (draw c) r.authID r.authRole (str "dynamic")).1 hb
    rw [challengeFor, this] at h5
    cases h5
  | some b =>
    obtain ⟨ch', m, e1, e2, f1, f2, f3, f4, -⟩ := (C98_content (draw c) r.authID r.authRole (str "dynamic")).2 b hb
    rw [challengeFor, e1] at h5
    cases h5
    exact ⟨sig, aex, c, extra, ch, key, m, r.authID, r.authRole, h1, h2, h3, h4, h6, e2, f4, h7, f1, h8, f2⟩

/-- **C99** (refuted) The session number in the challenge is not the session's ID: it is drawn separately, so for any two numbers there is
a login whose challenge names one and whose WELCOME the other. -/
theorem C99_other_session (cr : Crypto) (nonce : Str) (now : Clock) (x : UInt64) (y : Nat) :
    ∃ c1 c2 s d extra ch m, Hist cr false [c2, c1] s ∧ Generated c1 ⟨some nonce, x, now⟩ ∧
      c1.out = .ok (.challenge mCRA extra) ∧ extra.get (str "challenge") = some (.str ch) ∧
      Json.dec 10000 ch = some (.map m, []) ∧ dget m (str "session") = some (.f64 (f64OfNat x.toNat)) ∧
      c2.out = .ok (.welcome y d) ∧ d.get (str "authmethod") = some (.named mCRA) := by
  let r : AuthResp := ⟨str "joe", str "user", some ⟨str "s3", [], 0, 0⟩⟩
  obtain ⟨ch, m, e1, e2, -, -, -, -, -, f6, -⟩ := (C98_content ⟨some nonce, x, now⟩ r.authID r.authRole (str "dynamic")).2 nonce rfl
  let env : Env := ⟨[mCRA], fun _ => .ok r, y, some ch, none⟩
  have hs1 : recv cr env (init false) (Demo.hello mCRA none) =
      ⟨{ static := false, st := .challengeSent, authMethod := mCRA, hello := some ⟨str "realm1", str "joe", none⟩, request := none,
         response := some r, challenge := ch, details := none },
       .ok (newChallenge mCRA (some [(str "challenge", .str ch)])),
       some (newRequest (str "realm1") (str "joe") none mCRA, .ok r)⟩ := by
    have hsel : selectAuthMethod env.methods [mCRA] = some mCRA := rfl
    simp only [recv, Demo.hello, newHello, recvHello, init, Option.getD_some, hsel]
    rfl
  refine ⟨callOf cr env (init false) (Demo.hello mCRA none),
    callOf cr env (recv cr env (init false) (Demo.hello mCRA none)).state (.authenticate (signCRA cr ch (str "s3")) none), _,
    some (welcomeDetails (str "realm1") (str "joe") (str "user") mCRA), some [(str "challenge", .str ch)], ch, m,
    .call env (.authenticate (signCRA cr ch (str "s3")) none) (.call env (Demo.hello mCRA none) .new), ?_, ?_, rfl, e2, f6, ?_, rfl⟩
  · rintro req r' ha
    simp only [Call.approved, callOf, hs1, Option.some.injEq, Prod.mk.injEq, AuthOut.ok.injEq] at ha
    rw [← ha.2]
    exact e1.symm
  · simp only [callOf, hs1]
    rfl
  · rw [hs1]
    simp only [callOf, recv, recvAuthenticate, Option.bind_some, r, craKey, if_true, C23_cra_completeness]
    rfl

/-- The hypotheses of `C98_no_replay` can be met: a MAC that separates texts, and two logins with different nonces. -/
example : ∃ (cr : Crypto) (c1 c2 c1' c2' : Call) (s s' : State) (d d' : GoMap) (draw draw' : Call → Draw),
    (∀ k k' m m', cr.hmac k m = cr.hmac k' m' → m = m') ∧
    Hist cr false [c2, c1] s ∧ Hist cr false [c2', c1'] s' ∧ Generated c1 (draw c1) ∧ Generated c1' (draw' c1') ∧
    (∀ n, (draw c1).nonce = some n → (draw' c1').nonce ≠ some n) ∧
    c2.out = .ok (.welcome 9 d) ∧ d.get (str "authmethod") = some (.named mCRA) ∧
    c2'.out = .ok (.welcome 10 d') ∧ d'.get (str "authmethod") = some (.named mCRA) := by
  obtain ⟨c1, c2, s, d, extra, ch, m, h1, h2, -, -, -, -, h3, h4⟩ :=
    C99_other_session { Demo.cr with hmac := fun _ m => m } [1] ⟨2024, 5, 9, 23, 4, 0, 0⟩ 5 9
  obtain ⟨c1', c2', s', d', extra', ch', m', h1', h2', -, -, -, -, h3', h4'⟩ :=
    C99_other_session { Demo.cr with hmac := fun _ m => m } [2] ⟨2024, 5, 9, 23, 4, 0, 0⟩ 6 10
  exact ⟨_, c1, c2, c1', c2', s, s', d, d', fun _ => ⟨some [1], 5, ⟨2024, 5, 9, 23, 4, 0, 0⟩⟩, fun _ => ⟨some [2], 6, ⟨2024, 5, 9, 23, 4, 0, 0⟩⟩,
    fun _ _ _ _ h => h, h1, h1', h2, h2', fun n h => by cases h; simp, h3, h4, h3', h4'⟩

end Wamp
