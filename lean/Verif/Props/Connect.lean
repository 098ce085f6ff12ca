import Verif.Lemmas.Connect
import Verif.Props.RawSocket
import Verif.Props.Login
/-!
# C139: a connection works from its first byte
-/
namespace Wamp.Connect
open Wamp Wamp.Spec Wamp.Handshake

/-! ### Timing -/

/-- **C139** (timing) Whatever the client, the router, their authenticators, serializers and sizes: if one execution of a connection comes to an end, then no execution
is longer than some bound, every execution can be continued to that end, and no execution has another one.  So how the bytes are cut into pieces, when the pieces
arrive and who reads first makes no difference to the outcome. -/
theorem C139_timing (u : Setup) (x z : Conn) (n : Nat) (hz : Steps u n x z) (ho : Over u z) :
    (∃ bound, ∀ m y, Steps u m x y → m ≤ bound) ∧ (∀ m y, Steps u m x y → ∃ k, Steps u k y z) ∧
    ∀ m y, Steps u m x y → Over u y → y = z := by
  refine ⟨bounded hz ho, fun m y hy => same_end hy hz ho, fun m y hy hoy => ?_⟩
  obtain ⟨k, hk⟩ := same_end hy hz ho
  cases hk with
  | nil => rfl
  | cons hs _ => exact absurd hs (hoy _)

/-! ### Logging in -/

/-- A codec that refuses to write what does not fit into a frame. -/
def bounding (c : Codec) : Codec := ⟨fun l => (c.enc l).bind fun b => if b.length < 2 ^ 24 then some b else none, c.dec⟩

theorem bounding_serialize {c : Codec} {m : Msg} {b : Str} (h : (bounding c).serialize m = .ok b) : c.serialize m = .ok b ∧ b.length < 2 ^ 24 := by
  simp only [Codec.serialize, bounding] at h ⊢
  cases he : c.enc m.marshal with
  | none => rw [he] at h; cases h
  | some b' =>
    rw [he] at h
    simp only [Option.bind_some] at h
    split at h
    · cases h; exact ⟨rfl, by assumption⟩
    · cases h

theorem bounding_acceptor {cr : Crypto} {c : Codec} {env : Acceptor.Env} {s s' : Acceptor.State} {data p : Str} {w : Bool}
    (h : Acceptor.receive cr (bounding c) env s data = (s', .ok (p, w))) : Acceptor.receive cr c env s data = (s', .ok (p, w)) ∧ p.length < 2 ^ 24 := by
  have hd : (bounding c).deserialize = c.deserialize := rfl
  simp only [Acceptor.receive, hd] at h ⊢
  split at h <;> try (cases h; done)
  rename_i m hm
  generalize Acceptor.recv cr env s m = o at h ⊢
  cases hr : o.res with
  | ok t =>
    simp only [hr, Res.bind, Prod.mk.injEq] at h ⊢
    obtain ⟨h1, h2⟩ := h
    cases hs : (bounding c).serialize t with
    | ok b =>
      simp only [hs, Res.ok.injEq, Prod.mk.injEq] at h2
      obtain ⟨g1, g2⟩ := bounding_serialize hs
      simp only [g1, h1, h2, and_self, true_and]
      rw [← h2.1]; exact g2
    | err => rw [hs] at h2; cases h2
    | panic => rw [hs] at h2; cases h2
  | err => simp only [hr, Res.bind, Prod.mk.injEq] at h; cases h.2
  | panic => simp only [hr, Res.bind, Prod.mk.injEq] at h; cases h.2

theorem bounding_joiner {c : Codec} {a : Joiner.Auth} {s s' : Joiner.State} {data : Str} {p : Option Str}
    (h : Joiner.receive (bounding c) a s data = (s', .ok p)) : Joiner.receive c a s data = (s', .ok p) ∧ ∀ b, p = some b → b.length < 2 ^ 24 := by
  have hd : (bounding c).deserialize = c.deserialize := rfl
  simp only [Joiner.receive, hd] at h ⊢
  split at h <;> try (cases h; done)
  rename_i m hm
  generalize Joiner.recv a s m = o at h ⊢
  obtain ⟨s1, r⟩ := o
  cases r with
  | ok t =>
    cases t with
    | none =>
      simp only [Res.bind, Prod.mk.injEq, Res.ok.injEq] at h ⊢
      obtain ⟨h1, h2⟩ := h
      exact ⟨⟨h1, h2⟩, by rintro b rfl; cases h2⟩
    | some t =>
      simp only [Res.bind, Prod.mk.injEq] at h ⊢
      obtain ⟨h1, h2⟩ := h
      cases hs : (bounding c).serialize t with
      | ok b =>
        simp only [hs, Res.ok.injEq] at h2
        obtain ⟨g1, g2⟩ := bounding_serialize hs
        simp only [g1, h1, h2, and_self, true_and]
        rintro b' rfl
        cases h2
        exact g2
      | err => rw [hs] at h2; cases h2
      | panic => rw [hs] at h2; cases h2
  | err => simp only [Res.bind, Prod.mk.injEq] at h; cases h.2
  | panic => simp only [Res.bind, Prod.mk.injEq] at h; cases h.2

/-- After its WELCOME the acceptor takes nothing. -/
theorem welcome_last {cr : Crypto} {env : Acceptor.Env} {s : Acceptor.State} {m w : Msg} (h : (Acceptor.recv cr env s m).res = .ok w) (hw : w.type = 2) :
    (Acceptor.recv cr env s m).state.st = .welcomeSent := by
  have hs : ∀ (s : Acceptor.State) id r e x, (Acceptor.sendWelcome s id r e x).res = .ok w → (Acceptor.sendWelcome s id r e x).state.st = .welcomeSent := by
    intro s id r e x h
    unfold Acceptor.sendWelcome at h ⊢
    split at h
    · rfl
    · cases h
  unfold Acceptor.recv at h ⊢
  split at h
  · cases h
  rename_i hst
  rw [if_neg hst]
  cases m with
  | hello realm authID ms ex roles =>
    dsimp only at h ⊢
    revert h
    fun_cases Acceptor.recvHello env s realm authID ms ex <;> intro h <;> first | exact hs _ _ _ _ _ h | (cases h; done) | (cases h; cases hw; done)
  | authenticate sig ex =>
    dsimp only at h ⊢
    revert h
    fun_cases Acceptor.recvAuthenticate cr env s sig ex <;> intro h <;> first | exact hs _ _ _ _ _ h | (cases h; done) | (cases h; cases hw; done)
  | _ => cases h

theorem readFrame_whole {p : Str} (h : p.length < 2 ^ 24) : Net.readFrame (Net.frame p) = some (p, []) := by
  have hl : (RawSocket.sendMessageHeader ⟨0, p.length⟩).length = 4 := rfl
  have h4 : (Net.frame p).take 4 = RawSocket.sendMessageHeader ⟨0, p.length⟩ := by
    rw [Net.frame, List.take_append_of_le_length (by omega), ← hl, List.take_length]
  have h5 : (Net.frame p).drop 4 = p := by rw [Net.frame, ← hl, List.drop_left]
  have h6 : (Net.frame p).length = 4 + p.length := by rw [Net.frame, List.length_append, hl]
  rw [Net.readFrame, if_neg (by omega), h4, (RawSocket.C04_header_roundtrip 0 p.length h).1, h5]
  simp

/-- A login that works when it is done step by step is one of the executions. -/
theorem exchange_run {u : Setup} {c : Codec} {asf : Acceptor.State} {jsf : Joiner.State} : ∀ (envs : List Acceptor.Env) (i : Nat) (as : Acceptor.State)
    (js : Joiner.State) (data : Str), (∀ j (h : j < envs.length), envs[j] = u.env (i + j)) → data.length < 2 ^ 24 →
    exchange u.cr (bounding c) u.auth envs as js data = some (asf, jsf, true) →
    ∃ n, Many (Tick u) n ⟨.joining c js, .accepting c i as, Net.frame data, [], [], []⟩ ⟨.joined jsf, .welcomed asf, [], [], [], []⟩
  | [], _, _, _, _, _, _, h => by cases h
  | env :: envs, i, as, js, data, he, hd, h => by
    have he0 : env = u.env i := he 0 (by simp)
    rw [exchange] at h
    split at h
    case h_2 => cases h
    rename_i as' p w ha
    obtain ⟨ha, hp⟩ := bounding_acceptor ha
    have r1 := up_ticks u (Net.frame data) (.joining c js) (.accepting c i as) [] [] [] []
    rw [List.append_nil, List.nil_append] at r1
    have router : ∀ (ro : Router), Router.read u (.accepting c i as) (Net.frame data) = some (ro, [], Net.frame p) →
        Many (Tick u) 1 ⟨.joining c js, .accepting c i as, [], Net.frame data, [], []⟩ ⟨.joining c js, ro, [], [], Net.frame p, []⟩ := by
      intro ro h
      exact .cons (.router h) .nil
    split at h
    · rename_i js' hj
      obtain ⟨hj, -⟩ := bounding_joiner hj
      cases h
      have r2 := router (.welcomed asf) (by simp only [Router.read, readFrame_whole hd, ← he0, ha])
      have r3 := down_ticks u (Net.frame p) (.joining c js) (.welcomed asf) [] [] [] []
      rw [List.append_nil, List.nil_append] at r3
      have r4 : Many (Tick u) 1 ⟨.joining c js, .welcomed asf, [], [], [], Net.frame p⟩ ⟨.joined jsf, .welcomed asf, [], [], [], []⟩ :=
        .cons (.client (by simp only [Client.read, readFrame_whole hp, hj])) .nil
      exact ⟨_, ((r1.trans r2).trans r3).trans r4⟩
    · rename_i js' p' hj
      obtain ⟨hj, hp'⟩ := bounding_joiner hj
      cases w with
      | true =>
        exfalso
        have hw : as'.st = .welcomeSent := by
          simp only [Acceptor.receive] at ha
          split at ha <;> try (cases ha; done)
          rename_i m hm
          simp only [Prod.mk.injEq] at ha
          obtain ⟨rfl, h2⟩ := ha
          cases hr : (Acceptor.recv u.cr env as m).res with
          | ok t =>
            rw [hr] at h2
            simp only [Res.bind] at h2
            cases hs : c.serialize t with
            | ok b =>
              simp only [hs, Res.ok.injEq, Prod.mk.injEq, beq_iff_eq] at h2
              exact welcome_last hr h2.2
            | err => rw [hs] at h2; cases h2
            | panic => rw [hs] at h2; cases h2
          | err => rw [hr] at h2; cases h2
          | panic => rw [hr] at h2; cases h2
        cases envs with
        | nil => cases h
        | cons e es =>
          rw [exchange] at h
          split at h
          case h_2 => cases h
          rename_i hrec
          simp only [Acceptor.receive, Acceptor.recv, if_pos hw] at hrec
          split at hrec <;> cases hrec
      | false =>
        have r2 := router (.accepting c (i + 1) as') (by simp only [Router.read, readFrame_whole hd, ← he0, ha])
        have r3 := down_ticks u (Net.frame p) (.joining c js) (.accepting c (i + 1) as') [] [] [] []
        rw [List.append_nil, List.nil_append] at r3
        have r4 : Many (Tick u) 1 ⟨.joining c js, .accepting c (i + 1) as', [], [], [], Net.frame p⟩
            ⟨.joining c js', .accepting c (i + 1) as', Net.frame p', [], [], []⟩ :=
          .cons (.client (by simp only [Client.read, readFrame_whole hp, hj]; rfl)) .nil
        obtain ⟨n, r5⟩ := exchange_run envs (i + 1) as' js' p' (fun j hj => by
          have := he (j + 1) (by simpa using hj)
          rw [List.getElem_cons_succ] at this
          rw [this]; congr 1; omega) (hp' p' rfl) h
        exact ⟨_, (((r1.trans r2).trans r3).trans r4).trans r5⟩
    · cases h

/-- The handshake of a power of two. -/
theorem handshake_sent (f2i : GoFloat → Int) (ser : Int) (h0 : 0 ≤ ser) (h1 : ser ≤ 15) (k : Nat) (h9 : 9 ≤ k) (h24 : k ≤ 24) :
    ∃ b, RawSocket.sendHandshake f2i ⟨ser, 2 ^ k⟩ = .ok b ∧ b.length = 4 ∧ RawSocket.receiveHandshake b = .ok ⟨ser, 2 ^ k⟩ := by
  refine ⟨_, RawSocket.sendHandshake_pow f2i ser k h9 h24, rfl, ?_⟩
  exact (RawSocket.C06_handshake_roundtrip (fun _ => 0) ⟨Int.le_refl _, Int.le_refl _⟩).1 ⟨ser, 2 ^ k⟩ _ h0 h1
    (RawSocket.sendHandshake_pow (fun _ => 0) ser k h9 h24)

/-- Both ends are where they should be, nothing is left over, and their session details agree. -/
def Connected (z : Conn) (id : Nat) (realm authID authRole method : Str) : Prop :=
  ∃ as js da dj, z = ⟨.joined js, .welcomed as, [], [], [], []⟩ ∧ Acceptor.sessionDetails as = .ok da ∧ Joiner.sessionDetails js = .ok dj ∧
    da.id = id ∧ dj.id = id ∧ da.realm = realm ∧ dj.realm = realm ∧ da.authID = authID ∧ dj.authID = authID ∧
    da.authRole = authRole ∧ dj.authRole = authRole ∧ da.authMethod = method ∧ dj.authMethod = method

/-- **C139** For each of the three serializers, all sizes the handshake can express and each of the four built-in authenticators: if the method is allowed, the server's
authenticator approves the client and all messages of the login fit into a frame, then the connection ends, however the bytes are cut and delayed, with the client
joined, the router having welcomed it, nothing unread, and both holding session details that agree.  This is its only end, and no execution goes on for ever. -/
theorem C139_connects (u : Setup) (hc : SigScheme u.cr) (hser : u.serializer = 1 ∨ u.serializer = 2 ∨ u.serializer = 3)
    (k j : Nat) (hk : 9 ≤ k ∧ k ≤ 24) (hj : 9 ≤ j ∧ j ≤ 24) (hcm : u.clientMax = 2 ^ k) (hrm : u.routerMax = 2 ^ j)
    (c : Codec) (hcodec : u.codec u.serializer = some c) (ok : List Val → Prop)
    (norm : Val → Val) (hnorm : norm = jsonWire ∨ norm = cborWire ∨ norm = msgpackWire) (hf : Faithful c norm ok)
    (r : AuthResp) (ca : ClientAuth) (hauth : u.auth = ca.toAuth u.cr) (hid1 : (u.env 0).id ≤ 2 ^ 53) (hid2 : (u.env 1).id ≤ 2 ^ 53)
    (hm : ca.method ∈ (u.env 0).methods) (ha : Approves u.cr norm u.realm (u.env 0) (u.env 1) r ca)
    (hok : ∀ m id, id = (u.env 0).id ∨ id = (u.env 1).id → Crosses u.cr u.realm (u.env 0) id r ca m →
      ok m.marshal ∧ ∀ b, c.serialize m = .ok b → b.length < 2 ^ 24) :
    ∃ x z id, start u = some x ∧ (id = (u.env 0).id ∨ id = (u.env 1).id) ∧ Connected z id u.realm r.authID r.authRole ca.method ∧
      (∃ n, Steps u n x z) ∧ (∃ bound, ∀ n y, Steps u n x y → n ≤ bound) ∧ ∀ n y, Steps u n x y → Over u y → y = z := by
  have hs0 : 0 ≤ u.serializer ∧ u.serializer ≤ 15 := by omega
  have hf' : Faithful (bounding c) norm (fun l => ok l ∧ ∀ b, c.enc l = some b → b.length < 2 ^ 24) := by
    rintro l ⟨h1, h2⟩
    obtain ⟨b, hb, hd⟩ := hf l h1
    exact ⟨b, by simp [bounding, hb, h2 b hb], hd⟩
  obtain ⟨id, hid, as, js, da, dj, hlogin, h1, h2, h3⟩ := C42_honest_login u.cr hc _ (bounding c) norm hnorm hf' u.realm false (u.env 0) (u.env 1) r ca hid1 hid2 hm ha
    (fun m id hi hx => ⟨(hok m id hi hx).1, fun b hb => (hok m id hi hx).2 b (by rw [Codec.serialize, hb]; rfl)⟩)
  rw [← hauth, login] at hlogin
  split at hlogin
  case h_2 => cases hlogin
  rename_i js0 data hhello
  have hh : Joiner.sendHello c u.auth (Joiner.init u.realm false) = (js0, .ok data) ∧ data.length < 2 ^ 24 := by
    rw [Joiner.sendHello] at hhello ⊢
    split at hhello <;> cases hhello
    rename_i hs
    obtain ⟨g1, g2⟩ := bounding_serialize hs
    rw [g1]
    exact ⟨rfl, g2⟩
  obtain ⟨hh, hdata⟩ := hh
  obtain ⟨n, hrun⟩ := exchange_run [u.env 0, u.env 1] 0 (Acceptor.init false) js0 data (by
    intro j hj
    match j, hj with
    | 0, _ => rfl
    | 1, _ => rfl) hdata hlogin
  obtain ⟨bc, hbc, hlc, hrc⟩ := handshake_sent u.f2i u.serializer hs0.1 hs0.2 k hk.1 hk.2
  obtain ⟨br, hbr, hlr, hrr⟩ := handshake_sent u.f2i u.serializer hs0.1 hs0.2 j hj.1 hj.2
  have q1 := up_ticks u bc .greeting .listening [] [] [] []
  rw [List.append_nil, List.nil_append] at q1
  have q2 : Many (Tick u) 1 ⟨.greeting, .listening, [], bc, [], []⟩ ⟨.greeting, .accepting c 0 (Acceptor.init false), [], [], br, []⟩ :=
    .cons (.router (by
      have e1 : bc.take 4 = bc := List.take_of_length_le (by omega)
      have e2 : bc.drop 4 = [] := List.drop_of_length_le (by omega)
      simp only [Router.read, e1, e2, hrc, hcodec, hrm, hbr]
      rw [if_neg (by omega)])) .nil
  have q3 := down_ticks u br .greeting (.accepting c 0 (Acceptor.init false)) [] [] [] []
  rw [List.append_nil, List.nil_append] at q3
  have q4 : Many (Tick u) 1 ⟨.greeting, .accepting c 0 (Acceptor.init false), [], [], [], br⟩
      ⟨.joining c js0, .accepting c 0 (Acceptor.init false), Net.frame data, [], [], []⟩ :=
    .cons (.client (by
      have e1 : br.take 4 = br := List.take_of_length_le (by omega)
      have e2 : br.drop 4 = [] := List.drop_of_length_le (by omega)
      simp only [Client.read, e1, e2, hrr, hcodec, if_true, hh]
      rw [if_neg (by omega)]
      rfl)) .nil
  have hz : Over u ⟨.joined js, .welcomed as, [], [], [], []⟩ := by
    intro y hy
    cases hy with
    | up a b h1 h2 => exact h1 (List.append_eq_nil_iff.1 h2.symm).1
    | down a b h1 h2 => exact h1 (List.append_eq_nil_iff.1 h2.symm).1
    | client h => cases h
    | router h => cases h
  have hsteps := ticks_steps ((((q1.trans q2).trans q3).trans q4).trans hrun)
  obtain ⟨t1, -, t3⟩ := C139_timing u _ _ _ hsteps hz
  exact ⟨_, _, id, by rw [start, hcm, hbc], hid, ⟨as, js, da, dj, rfl, h1, h2, h3⟩, ⟨_, hsteps⟩, t1, t3⟩

/-- **C139** The same with the three serializers as they are, byte by byte, for an ordinary login. -/
theorem C139_formats (u : Setup) (hc : SigScheme u.cr) (order order' : List (Str × Str) → List (Str × Str)) (ho1 : ∀ l, (order l).Perm l)
    (ho2 : ∀ l, (order' l).Perm l) (hcodecs : u.codecs = ⟨Json.codec, Cbor.codec order, MsgPack.codec order'⟩)
    (k j : Nat) (hk : 9 ≤ k ∧ k ≤ 24) (hj : 9 ≤ j ∧ j ≤ 24) (hcm : u.clientMax = 2 ^ k) (hrm : u.routerMax = 2 ^ j)
    (r : AuthResp) (ca : ClientAuth) (d : Draw) (hauth : u.auth = ca.toAuth u.cr) (hid1 : (u.env 0).id ≤ 2 ^ 53) (hid2 : (u.env 1).id ≤ 2 ^ 53)
    (hm : ca.method ∈ (u.env 0).methods) (ho : Ordinary u.cr u.realm (u.env 0) r ca d)
    (hser : (u.serializer = 1 ∧ Approves u.cr jsonWire u.realm (u.env 0) (u.env 1) r ca ∧ Json.fits 9998 (.map (ca.authExtra.getD [])) = true) ∨
      (u.serializer = 2 ∧ Approves u.cr msgpackWire u.realm (u.env 0) (u.env 1) r ca ∧ MsgPack.fits (.map (ca.authExtra.getD [])) = true) ∨
      (u.serializer = 3 ∧ Approves u.cr cborWire u.realm (u.env 0) (u.env 1) r ca ∧ Cbor.fits 30 (.map (ca.authExtra.getD [])) = true))
    (hsmall : ∀ m id, id = (u.env 0).id ∨ id = (u.env 1).id → Crosses u.cr u.realm (u.env 0) id r ca m →
      ∀ c, u.codec u.serializer = some c → ∀ b, c.serialize m = .ok b → b.length < 2 ^ 24) :
    ∃ x z id, start u = some x ∧ (id = (u.env 0).id ∨ id = (u.env 1).id) ∧ Connected z id u.realm r.authID r.authRole ca.method ∧
      (∃ n, Steps u n x z) ∧ (∃ bound, ∀ n y, Steps u n x y → n ≤ bound) ∧ ∀ n y, Steps u n x y → Over u y → y = z := by
  rcases hser with ⟨hs, ha, hx⟩ | ⟨hs, ha, hx⟩ | ⟨hs, ha, hx⟩
  · have hcd : u.codec u.serializer = some Json.codec := by rw [Setup.codec, hs, hcodecs]; rfl
    exact C139_connects u hc (.inl hs) k j hk hj hcm hrm _ hcd _ jsonWire (by simp) Json.C97_faithful r ca hauth hid1 hid2 hm ha
      fun m id h hcr => ⟨crosses_carried json_carrier hc ho ha 9995 hx (json_mono _ _ hx) id (by rcases h with rfl | rfl <;> assumption) m hcr,
        hsmall m id h hcr _ hcd⟩
  · have hcd : u.codec u.serializer = some (MsgPack.codec order') := by rw [Setup.codec, hs, hcodecs]; rfl
    exact C139_connects u hc (.inr (.inl hs)) k j hk hj hcm hrm _ hcd _ msgpackWire (by simp) (MsgPack.C96_faithful order' ho2) r ca hauth hid1 hid2 hm ha
      fun m id h hcr => ⟨crosses_carried msgpack_carrier hc ho ha 27 hx hx id (by rcases h with rfl | rfl <;> assumption) m hcr,
        hsmall m id h hcr _ hcd⟩
  · have hcd : u.codec u.serializer = some (Cbor.codec order) := by rw [Setup.codec, hs, hcodecs]; rfl
    exact C139_connects u hc (.inr (.inr hs)) k j hk hj hcm hrm _ hcd _ cborWire (by simp) (Cbor.C95_faithful order ho1) r ca hauth hid1 hid2 hm ha
      fun m id h hcr => ⟨crosses_carried cbor_carrier hc ho ha 27 hx (cbor_mono _ _ hx) id (by rcases h with rfl | rfl <;> assumption) m hcr,
        hsmall m id h hcr _ hcd⟩

/-! ### A case that meets the hypotheses -/

namespace Demo
def setup (n : Int) : Setup :=
  ⟨Demo2.cr, ⟨Json.codec, Cbor.codec id, MsgPack.codec id⟩, fun _ => 0, n, 2 ^ 9, 2 ^ 24, Demo2.client.toAuth Demo2.cr, str "realm1", fun _ => Demo2.env⟩
end Demo

/-- Salted WAMP-CRA with an authextra over each of the three serializers: the remaining hypotheses are those shown to hold in Props/Login. -/
example (n : Int) (hn : n = 1 ∨ n = 2 ∨ n = 3) (m : Msg) (h : Crosses Demo2.cr (str "realm1") Demo2.env 77 Handshake.Demo.resp Demo2.client m) :
    ∀ c, (Demo.setup n).codec n = some c → ∀ b, c.serialize m = .ok b → b.length < 2 ^ 24 := by
  have hch : Demo2.env.craChallenge = challengeFor Demo2.draw Handshake.Demo.resp := rfl
  have hsmall : ∀ m ∈ [newHello (str "realm1") Demo2.client.authID Demo2.client.authExtra (some clientRoles) (some [Demo2.client.method]),
      newChallenge Demo2.client.method (some (Acceptor.craExtra ((challengeFor Demo2.draw Handshake.Demo.resp).getD []) ⟨str "secret", str "salt", 100, 32⟩)),
      newAuthenticate (signCRA Demo2.cr ((challengeFor Demo2.draw Handshake.Demo.resp).getD []) (b64Encode (str "secretsalt"))) Demo2.client.authExtra,
      newWelcome 77 (some (Acceptor.welcomeDetails (str "realm1") (str "joe") (str "user") mCRA))],
      ∀ c ∈ [Json.codec, MsgPack.codec id, Cbor.codec id], ((c.enc m.marshal).getD []).length < 2 ^ 24 := by decide +kernel
  intro c hcd b hb
  have hc' : c ∈ [Json.codec, MsgPack.codec id, Cbor.codec id] := by
    rcases hn with rfl | rfl | rfl <;> (cases hcd; simp [Demo.setup])
  have hm' : ((c.enc m.marshal).getD []).length < 2 ^ 24 := by
    rcases h with rfl | ⟨x, ⟨ch, info, h1, h2, rfl⟩, rfl⟩ | ⟨sig, ⟨ch, info, key, h1, h2, h3, rfl⟩, rfl⟩ | rfl
    · exact hsmall _ (by simp) c hc'
    · cases h2; rw [hch] at h1; have := hsmall _ (.tail _ (.head _)) c hc'; rw [h1] at this; exact this
    · cases h2; cases h3; rw [hch] at h1; have := hsmall _ (.tail _ (.tail _ (.head _))) c hc'; rw [h1] at this; exact this
    · exact hsmall _ (.tail _ (.tail _ (.tail _ (.head _)))) c hc'
  rw [Codec.serialize] at hb
  cases he : c.enc m.marshal with
  | none => rw [he] at hb; cases hb
  | some b' => rw [he] at hb hm'; cases hb; exact hm'

end Wamp.Connect
