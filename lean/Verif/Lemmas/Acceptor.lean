import Verif.Spec.Acceptor
import Verif.Props.Auth
/-!
# Invariant of acceptor histories
-/
namespace Wamp.Acceptor

/-- What a CHALLENGE in answer to HELLO `(realm, authID, ex)` by method `s.authMethod` established. -/
def ChallengeFacts (s : State) (c : Call) (realm authID : Str) (ex : GoMap) : Prop :=
  (s.authMethod = mTicket ∧ c.out = .ok (newChallenge mTicket (some []))) ∨
  (s.authMethod = mCRA ∧ ∃ r info, c.asked = some (newRequest realm authID ex mCRA, .ok r) ∧ r.cra = some info ∧
      s.response = some r ∧ c.out = .ok (newChallenge mCRA (some (craExtra s.challenge info)))) ∨
  (s.authMethod = mCryptoSign ∧ ∃ pk a, ex.get (str "pubkey") = some (.str pk) ∧
      c.asked = some (newCryptoSignRequest realm authID ex pk, a) ∧ s.request = some (newCryptoSignRequest realm authID ex pk) ∧
      (a = .nilResp ∧ s.response = none ∨ ∃ r, a = .ok r ∧ s.response = some r) ∧
      c.out = .ok (newChallenge mCryptoSign (some [(str "challenge", .str s.challenge)])))

/-- A challenge is outstanding. -/
def Outstanding (h : List Call) (s : State) : Prop :=
  ∃ h1 c h2 realm authID ms ex, h = h1 ++ c :: h2 ∧ OnlyAborts h1 ∧ OnlyAborts h2 ∧
    (∀ x ∈ h1, x.msg.kind = .hello → x.out = .err) ∧ IsHello c.msg realm authID ms ex ∧
    s.hello = some ⟨realm, authID, ex⟩ ∧ selectAuthMethod c.env.methods (ms.getD []) = some s.authMethod ∧
    ChallengeFacts s c realm authID ex

/-- What justifies a WELCOME `w` after history `h`; `aex` is the auth extra recorded. -/
def Justified (cr : Crypto) (w : Call) (h : List Call) (realm method : Str) (r : AuthResp) (aex : GoMap) : Prop :=
  (∃ authID ms ex, IsHello w.msg realm authID ms ex ∧ method = mAnonymous ∧ OnlyAborts h ∧
     selectAuthMethod w.env.methods (ms.getD []) = some method ∧
     w.asked = some (newRequest realm authID ex mAnonymous, .ok r) ∧ aex = none) ∨
  (∃ h1 c h2 authID ms ex s sig, h = h1 ++ c :: h2 ∧ OnlyAborts h1 ∧ OnlyAborts h2 ∧
    (∀ x ∈ h1, x.msg.kind = .hello → x.out = .err) ∧ IsHello c.msg realm authID ms ex ∧
    selectAuthMethod c.env.methods (ms.getD []) = some method ∧ s.authMethod = method ∧
    ChallengeFacts s c realm authID ex ∧ w.msg = .authenticate sig aex ∧
    ((method = mTicket ∧ w.asked = some (newTicketRequest realm authID ex sig, .ok r)) ∨
     (method = mCRA ∧ s.response = some r ∧ ∃ info key, r.cra = some info ∧ craKey cr info = .ok key ∧
        b64Decode sig = some (cr.hmac key s.challenge)) ∨
     (method = mCryptoSign ∧ s.response = some r ∧ ∃ pk key, s.request.bind (·.publicKey) = some pk ∧
        hexDecode pk = some key ∧ verifyCryptoSign cr sig key = some true)))

/-- The session is established. -/
def Established (cr : Crypto) (h : List Call) (s : State) : Prop :=
  ∃ h1 w h2 id realm method r aex, h = h1 ++ w :: h2 ∧ (∀ x ∈ h1, x.out = .err) ∧
    (∀ x ∈ h2, ¬ x.answered .welcome) ∧
    w.out = .ok (newWelcome id (some (welcomeDetails realm r.authID r.authRole method))) ∧
    s.details = some (newSessionDetails id realm r.authID r.authRole method s.static (some routerRoles) aex) ∧
    Justified cr w h2 realm method r aex

/-- The invariant. -/
def Inv (cr : Crypto) (h : List Call) (s : State) : Prop :=
  match s.st with
  | .none => s.details = none ∧ OnlyAborts h
  | .challengeSent => s.details = none ∧ Outstanding h s
  | .welcomeSent => Established cr h s

theorem onlyAborts_cons {c : Call} {h : List Call} (h1 : ∀ m, c.out = .ok m → m.kind = .abort) (h2 : OnlyAborts h) :
    OnlyAborts (c :: h) := by
  intro x hx; rcases List.mem_cons.1 hx with rfl | hx
  · exact h1
  · exact h2 x hx

theorem outstanding_cons {c : Call} {h : List Call} {s : State} (h1 : ∀ m, c.out = .ok m → m.kind = .abort)
    (h2 : c.msg.kind = .hello → c.out = .err) (ho : Outstanding h s) : Outstanding (c :: h) s := by
  obtain ⟨a, d, b, realm, authID, ms, ex, rfl, ha, hb, hc, hrest⟩ := ho
  refine ⟨c :: a, d, b, realm, authID, ms, ex, rfl, onlyAborts_cons h1 ha, hb, ?_, hrest⟩
  intro x hx; rcases List.mem_cons.1 hx with rfl | hx
  · exact h2
  · exact hc x hx

theorem not_welcome_of_onlyAborts {h : List Call} (ho : OnlyAborts h) : ∀ x ∈ h, ¬ x.answered .welcome := by
  rintro x hx ⟨m, hm, hk⟩
  rw [ho x hx m hm] at hk; cases hk

theorem challengeFacts_out {s c realm authID ex} (h : ChallengeFacts s c realm authID ex) :
    ∃ e, c.out = .ok (.challenge s.authMethod (some e)) := by
  rcases h with ⟨h1, h2⟩ | ⟨h1, r, info, _, _, _, h2⟩ | ⟨h1, pk, a, _, _, _, _, h2⟩ <;> exact ⟨_, by rw [h1, h2]; rfl⟩

theorem not_welcome_of_outstanding {h : List Call} {s : State} (ho : Outstanding h s) : ∀ x ∈ h, ¬ x.answered .welcome := by
  obtain ⟨a, d, b, realm, authID, ms, ex, rfl, ha, hb, hc, _, _, _, hf⟩ := ho
  intro x hx
  rcases List.mem_append.1 hx with hx | hx
  · exact not_welcome_of_onlyAborts ha x hx
  · rcases List.mem_cons.1 hx with rfl | hx
    · obtain ⟨e, he⟩ := challengeFacts_out hf
      rintro ⟨m, hm, hk⟩
      rw [he] at hm; cases hm; cases hk
    · exact not_welcome_of_onlyAborts hb x hx

theorem abort_kind (t : Str) : (abortMsg t).kind = .abort := rfl

/-- The HELLO branch preserves the invariant. -/
theorem inv_hello (cr : Crypto) {h : List Call} {s : State} (env : Env) (realm authID : Str) (ms : Option (List Str))
    (ex roles : GoMap) (hi : Inv cr h s) (hst : s.st ≠ .welcomeSent) :
    Inv cr (⟨env, .hello realm authID ms ex roles, (recvHello env s realm authID ms ex).res,
      (recvHello env s realm authID ms ex).asked⟩ :: h) (recvHello env s realm authID ms ex).state := by
  by_cases hn : s.st = .none
  · have hi' := hi
    simp only [Inv, hn] at hi'
    obtain ⟨hd, ho⟩ := hi'
    have quiet : ∀ (res : Res Msg) asked (s' : State), s'.st = .none → s'.details = none →
        (∀ m, res = .ok m → m.kind = .abort) →
        Inv cr (⟨env, .hello realm authID ms ex roles, res, asked⟩ :: h) s' := by
      intro res asked s' h1 h2 h3
      simp only [Inv, h1]
      exact ⟨h2, onlyAborts_cons h3 ho⟩
    have chal : ∀ (res : Res Msg) asked (s' : State), s'.st = .challengeSent → s'.details = none →
        s'.hello = some ⟨realm, authID, ex⟩ → selectAuthMethod env.methods (ms.getD []) = some s'.authMethod →
        ChallengeFacts s' ⟨env, .hello realm authID ms ex roles, res, asked⟩ realm authID ex →
        Inv cr (⟨env, .hello realm authID ms ex roles, res, asked⟩ :: h) s' := by
      intro res asked s' h1 h2 h3 h4 h5
      simp only [Inv, h1]
      exact ⟨h2, [], _, h, realm, authID, ms, ex, rfl, by simp [OnlyAborts], ho, by simp, ⟨roles, rfl⟩, h3, h4, h5⟩
    unfold recvHello
    rw [if_neg (by simp [hn])]
    cases hsel : selectAuthMethod env.methods (ms.getD []) with
    | none => exact quiet _ _ _ hn hd (by rintro m ⟨⟩; rfl)
    | some am =>
      simp only
      split
      · next ham =>
        subst ham
        cases ha : env.authn (newRequest realm authID ex mAnonymous) with
        | err t => exact quiet _ _ _ hn hd (by rintro m ⟨⟩; rfl)
        | nilResp => exact quiet _ _ _ hn hd (by rintro m h; cases h)
        | ok r =>
          simp only [sendWelcome, Inv]
          refine ⟨[], _, h, env.id, realm, mAnonymous, r, none, rfl, by simp, not_welcome_of_onlyAborts ho, rfl, rfl, ?_⟩
          exact Or.inl ⟨authID, ms, ex, ⟨roles, rfl⟩, rfl, ho, hsel, rfl, rfl⟩
      · split
        · next ham =>
          subst ham
          exact chal _ _ _ rfl hd rfl hsel (Or.inl ⟨rfl, rfl⟩)
        · split
          · next ham =>
            subst ham
            cases ha : env.authn (newRequest realm authID ex mCRA) with
            | err t => exact quiet _ _ _ hn hd (by rintro m ⟨⟩; rfl)
            | nilResp => exact quiet _ _ _ hn hd (by rintro m h; cases h)
            | ok r =>
              simp only
              cases hr : r.cra with
              | none => exact quiet _ _ _ hn hd (by rintro m h; cases h)
              | some info =>
                simp only
                cases hc : env.craChallenge with
                | none => exact quiet _ _ _ hn hd (by rintro m h; cases h)
                | some ch =>
                  exact chal _ _ _ rfl hd rfl hsel (Or.inr (Or.inl ⟨rfl, r, info, rfl, hr, rfl, rfl⟩))
          · split
            · next ham =>
              subst ham
              cases hv : ex.get (str "pubkey") with
              | none => exact quiet _ _ _ hn hd (by rintro m h; cases h)
              | some v =>
                simp only
                cases hs : v.asStr? with
                | none => exact quiet _ _ _ hn hd (by rintro m h; cases h)
                | some pk =>
                  have hv' : ex.get (str "pubkey") = some (.str pk) := by
                    cases v <;> simp [Val.asStr?] at hs
                    rw [hv, hs]
                  simp only
                  split
                  · exact quiet _ _ _ hn hd (by rintro m h; cases h)
                  · cases ha : env.authn (newCryptoSignRequest realm authID ex pk) with
                    | err t => exact quiet _ _ _ hn hd (by rintro m ⟨⟩; rfl)
                    | nilResp =>
                      simp only
                      cases hc : env.csChallenge with
                      | none => exact quiet _ _ _ hn hd (by rintro m h; cases h)
                      | some ch =>
                        exact chal _ _ _ rfl hd rfl hsel
                          (Or.inr (Or.inr ⟨rfl, pk, .nilResp, hv', rfl, rfl, Or.inl ⟨rfl, rfl⟩, rfl⟩))
                    | ok r =>
                      simp only
                      cases hc : env.csChallenge with
                      | none => exact quiet _ _ _ hn hd (by rintro m h; cases h)
                      | some ch =>
                        exact chal _ _ _ rfl hd rfl hsel
                          (Or.inr (Or.inr ⟨rfl, pk, .ok r, hv', rfl, rfl, Or.inr ⟨r, rfl, rfl⟩, rfl⟩))
            · exact quiet _ _ _ hn hd (by rintro m h; cases h)
  · have hcs : s.st = .challengeSent := by cases hs : s.st <;> simp_all
    have hi' := hi
    simp only [Inv, hcs] at hi'
    have : recvHello env s realm authID ms ex = ⟨s, .err, none⟩ := by simp [recvHello, hn]
    rw [this]
    simp only [Inv, hcs]
    exact ⟨hi'.1, outstanding_cons (by rintro m h; cases h) (fun _ => rfl) hi'.2⟩

/-- The AUTHENTICATE branch preserves the invariant. -/
theorem inv_authenticate (cr : Crypto) {h : List Call} {s : State} (env : Env) (sig : Str) (aex : GoMap)
    (hi : Inv cr h s) (hst : s.st ≠ .welcomeSent) :
    Inv cr (⟨env, .authenticate sig aex, (recvAuthenticate cr env s sig aex).res,
      (recvAuthenticate cr env s sig aex).asked⟩ :: h) (recvAuthenticate cr env s sig aex).state := by
  by_cases hcs : s.st = .challengeSent
  · have hi' := hi
    simp only [Inv, hcs] at hi'
    obtain ⟨hd, ho⟩ := hi'
    have quiet : ∀ (res : Res Msg) asked, (∀ m, res = .ok m → m.kind = .abort) →
        Inv cr (⟨env, .authenticate sig aex, res, asked⟩ :: h) s := by
      intro res asked h3
      simp only [Inv, hcs]
      exact ⟨hd, outstanding_cons h3 (by intro h; cases h) ho⟩
    have hnw := not_welcome_of_outstanding ho
    obtain ⟨h1, c, h2, realm, authID, ms, ex, rfl, ha1, ha2, ha3, hhello, hsh, hsel, hf⟩ := ho
    have welcome : ∀ (r : AuthResp) asked,
        ((s.authMethod = mTicket ∧ asked = some (newTicketRequest realm authID ex sig, .ok r)) ∨
         (s.authMethod = mCRA ∧ s.response = some r ∧ ∃ info key, r.cra = some info ∧ craKey cr info = .ok key ∧
            b64Decode sig = some (cr.hmac key s.challenge)) ∨
         (s.authMethod = mCryptoSign ∧ s.response = some r ∧ ∃ pk key, s.request.bind (·.publicKey) = some pk ∧
            hexDecode pk = some key ∧ verifyCryptoSign cr sig key = some true)) →
        Inv cr (⟨env, .authenticate sig aex, (sendWelcome s env.id (some r) aex asked).res,
          (sendWelcome s env.id (some r) aex asked).asked⟩ :: (h1 ++ c :: h2))
          (sendWelcome s env.id (some r) aex asked).state := by
      intro r asked hj
      simp only [sendWelcome, hsh, Inv]
      refine ⟨[], _, _, env.id, realm, s.authMethod, r, aex, rfl, by simp, hnw, rfl, rfl, Or.inr ?_⟩
      exact ⟨h1, c, h2, authID, ms, ex, s, sig, rfl, ha1, ha2, ha3, hhello, hsel, rfl, hf, rfl, hj⟩
    unfold recvAuthenticate
    rw [if_neg (by simp [hcs])]
    split
    · next ham =>
      simp only [hsh]
      cases ha : env.authn (newTicketRequest realm authID ex sig) with
      | err t => exact quiet _ _ (by rintro m ⟨⟩; rfl)
      | nilResp =>
        simp only [sendWelcome, hsh]
        exact quiet _ _ (by rintro m h; cases h)
      | ok r => exact welcome r _ (Or.inl ⟨ham, rfl⟩)
    · split
      · next ham =>
        cases hr : s.response.bind (·.cra) with
        | none => exact quiet _ _ (by rintro m h; cases h)
        | some info =>
          simp only
          cases hk : craKey cr info with
          | ok key =>
            simp only
            split
            · next hv =>
              cases hresp : s.response with
              | none => rw [hresp] at hr; cases hr
              | some r =>
                rw [hresp] at hr
                exact welcome r none (Or.inr (Or.inl ⟨ham, hresp, info, key, hr, hk, (C24_cra_soundness cr _ _ _).1 hv⟩))
            · exact quiet _ _ (by rintro m ⟨⟩; rfl)
          | err => exact quiet _ _ (by rintro m h; cases h)
          | panic => exact quiet _ _ (by rintro m h; cases h)
      · split
        · next ham =>
          cases hr : s.request.bind (·.publicKey) with
          | none => exact quiet _ _ (by rintro m h; cases h)
          | some pk =>
            simp only
            cases hk : hexDecode pk with
            | none => exact quiet _ _ (by rintro m h; cases h)
            | some key =>
              simp only
              split
              · next hv =>
                have hv' : verifyCryptoSign cr sig key = some true := by
                  cases hx : verifyCryptoSign cr sig key <;> simp_all
                cases hresp : s.response with
                | none =>
                  simp only [sendWelcome, hsh]
                  exact quiet _ _ (by rintro m h; cases h)
                | some r => exact welcome r none (Or.inr (Or.inr ⟨ham, hresp, pk, key, hr, hk, hv'⟩))
              · exact quiet _ _ (by rintro m ⟨⟩; rfl)
        · exact quiet _ _ (by rintro m h; cases h)
  · have hn : s.st = .none := by cases hs : s.st <;> simp_all
    have hi' := hi
    simp only [Inv, hn] at hi'
    have : recvAuthenticate cr env s sig aex = ⟨s, .err, none⟩ := by simp [recvAuthenticate, hn]
    rw [this]
    simp only [Inv, hn]
    exact ⟨hi'.1, onlyAborts_cons (by rintro m h; cases h) hi'.2⟩

theorem hist_inv {cr : Crypto} {static : Bool} {h : List Call} {s : State} (hh : Hist cr static h s) : Inv cr h s := by
  induction hh with
  | new => exact ⟨rfl, by simp [OnlyAborts]⟩
  | @call h s env m _ ih =>
    unfold callOf
    by_cases hst : s.st = .welcomeSent
    · have hr : recv cr env s m = ⟨s, .err, none⟩ := by simp [recv, hst]
      rw [hr]
      simp only [Inv, hst] at ih ⊢
      obtain ⟨h1, w, h2, id, realm, method, r, aex, rfl, ha, hb⟩ := ih
      exact ⟨_ :: h1, w, h2, id, realm, method, r, aex, rfl, by
        intro x hx; rcases List.mem_cons.1 hx with rfl | hx
        · rfl
        · exact ha x hx, hb⟩
    · unfold recv
      rw [if_neg hst]
      cases m
      case hello realm authID ms ex roles => exact inv_hello cr env realm authID ms ex roles ih hst
      case authenticate sig ex => exact inv_authenticate cr env sig ex ih hst
      all_goals
        simp only [Inv] at ih ⊢
        cases hs : s.st with
        | none => rw [hs] at ih; exact ⟨ih.1, onlyAborts_cons (by rintro m h; cases h) ih.2⟩
        | challengeSent =>
          rw [hs] at ih
          exact ⟨ih.1, outstanding_cons (by rintro m h; cases h) (fun _ => rfl) ih.2⟩
        | welcomeSent => exact absurd hs hst

theorem sendWelcome_static (s : State) (id : Nat) (r : Option AuthResp) (e : GoMap) (a : Option (AuthReq × AuthOut)) :
    (sendWelcome s id r e a).state.static = s.static := by
  unfold sendWelcome; split <;> rfl

theorem recvHello_static (env : Env) (s : State) (realm authID : Str) (ms : Option (List Str)) (ex : GoMap) :
    (recvHello env s realm authID ms ex).state.static = s.static := by
  fun_cases recvHello env s realm authID ms ex
  all_goals (first | rfl | exact sendWelcome_static _ _ _ _ _ | (simp only; rfl))

theorem recvAuthenticate_static (cr : Crypto) (env : Env) (s : State) (sig : Str) (ex : GoMap) :
    (recvAuthenticate cr env s sig ex).state.static = s.static := by
  fun_cases recvAuthenticate cr env s sig ex
  all_goals (first | rfl | exact sendWelcome_static _ _ _ _ _)

theorem hist_static {cr : Crypto} {static : Bool} {h : List Call} {s : State} (hh : Hist cr static h s) :
    s.static = static := by
  induction hh with
  | new => rfl
  | @call h s env m _ ih =>
    unfold recv
    split
    · exact ih
    · split
      · rw [recvHello_static]; exact ih
      · rw [recvAuthenticate_static]; exact ih
      · exact ih

end Wamp.Acceptor
