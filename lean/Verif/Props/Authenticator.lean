import Verif.Props.Acceptor
/-!
# C128: the authenticator is asked once, about the right client, and its refusal is passed on
-/
namespace Wamp.Acceptor

/-- **C128** In one call at most one question is put to the authenticator, the one in the record `asked`: with any other authenticator
that gives the same answer to it, the call returns the same and leaves the same acceptor behind.  (When there is no question, with any other one at all.) -/
theorem C128_one_question (cr : Crypto) (env : Env) (s : State) (m : Msg) (other : AuthReq → AuthOut)
    (h : ∀ q a, (recv cr env s m).asked = some (q, a) → other q = a) :
    recv cr { env with authn := other } s m = recv cr env s m := by
  have hw : ∀ (s' : State) id r e x, (sendWelcome s' id r e x).asked = x := by
    intro s' id r e x; unfold sendWelcome; split <;> rfl
  unfold recv at h ⊢
  split at h
  · rename_i hs
    rw [if_pos hs, if_pos hs]
  · rename_i hs
    rw [if_neg hs, if_neg hs]
    cases m <;> try rfl
    · rename_i realm authID ms ex roles
      simp only at h ⊢
      revert h
      fun_cases recvHello env s realm authID ms ex
      all_goals simp only [hw]
      all_goals intro h
      all_goals try have h1 := h _ _ rfl
      all_goals clear h
      all_goals simp_all +zetaDelta [recvHello]
    · rename_i sig ex
      simp only at h ⊢
      revert h
      fun_cases recvAuthenticate cr env s sig ex
      all_goals simp only [hw]
      all_goals intro h
      all_goals try have h1 := h _ _ rfl
      all_goals clear h
      all_goals simp_all +zetaDelta [recvAuthenticate, -Option.bind_eq_none_iff]

/-- **C128** When the authenticator refuses, with whatever error, the answer is ABORT `wamp.error.authentication_failed` with the text of the error as
its only argument, and there is no session. -/
theorem C128_refused {cr : Crypto} {static : Bool} {h : List Call} {w : Call} {s : State} {q : AuthReq} {t : Str}
    (hh : Hist cr static (w :: h) s) (ha : w.asked = some (q, .err t)) :
    w.out = .ok (.abort (some []) (str "wamp.error.authentication_failed") (some [.str t]) none) ∧ s.details = none := by
  have hw : ∀ (s' : State) id r e x, (sendWelcome s' id r e x).asked = x := by
    intro s' id r e x; unfold sendWelcome; split <;> rfl
  have key : w.out = .ok (.abort (some []) (str "wamp.error.authentication_failed") (some [.str t]) none) := by
    cases hh with
    | @call h s env m hh =>
      simp only [callOf] at ha ⊢
      revert ha
      unfold recv
      split
      · intro ha; cases ha
      · cases m <;> try (intro ha; cases ha)
        · rename_i realm authID ms ex roles
          simp only
          fun_cases recvHello env s realm authID ms ex
          all_goals simp only [hw]
          all_goals intro ha
          all_goals simp_all +zetaDelta [abortMsg, newAbort, errAuthFailed, orEmpty]
        · rename_i sig ex
          simp only
          fun_cases recvAuthenticate cr env s sig ex
          all_goals simp only [hw]
          all_goals intro ha
          all_goals simp_all +zetaDelta [abortMsg, newAbort, errAuthFailed, orEmpty]
  refine ⟨key, ?_⟩
  have hi := hist_inv hh
  unfold Inv at hi
  split at hi
  · exact hi.1
  · exact hi.1
  · obtain ⟨h1, w', h2, id', realm, method, r, aex, he, h1e, h2n, hout, hd, hj⟩ := hi
    cases h1 with
    | nil =>
      simp only [List.nil_append, List.cons.injEq] at he
      obtain ⟨rfl, rfl⟩ := he
      rw [key] at hout
      cases hout
    | cons x h1 =>
      simp only [List.cons_append, List.cons.injEq] at he
      obtain ⟨rfl, rfl⟩ := he
      rw [h1e w (List.mem_cons_self ..)] at key
      cases key

theorem asStr_inv {v : Val} {t : Str} (h : v.asStr? = some t) : v = .str t := by
  cases v <;> first | (injection h with h; rw [h]) | cases h

/-- **C128** What the authenticator is asked about: in answer to HELLO, the client of that HELLO by the method selected from its proposals, for cryptosign with
the public key the client named; in answer to AUTHENTICATE, the client of the HELLO that was answered with the last CHALLENGE, by ticket, with what
AUTHENTICATE brought. -/
theorem C128_question {cr : Crypto} {static : Bool} {h : List Call} {w : Call} {s : State} {q : AuthReq} {a : AuthOut}
    (hh : Hist cr static (w :: h) s) (ha : w.asked = some (q, a)) :
    (∃ realm authID ms ex, IsHello w.msg realm authID ms ex ∧ Asks q realm authID ex q.method ∧ q.ticket = none ∧
      selectAuthMethod w.env.methods (ms.getD []) = some q.method ∧
      (q.method = str "anonymous" ∧ q.publicKey = none ∨ q.method = str "wampcra" ∧ q.publicKey = none ∨
        q.method = str "cryptosign" ∧ ∃ key, key ≠ [] ∧ ex.get (str "pubkey") = some (.str key) ∧ q.publicKey = some key)) ∨
    (∃ sig extra h1 c h2 realm authID ms ex x, w.msg = .authenticate sig extra ∧ h = h1 ++ c :: h2 ∧ OnlyAborts h1 ∧
      IsHello c.msg realm authID ms ex ∧ c.out = .ok (.challenge (str "ticket") x) ∧
      Asks q realm authID ex (str "ticket") ∧ q.publicKey = none ∧ q.ticket = some sig) := by
  have hw : ∀ (s' : State) id r e x, (sendWelcome s' id r e x).asked = x := by
    intro s' id r e x; unfold sendWelcome; split <;> rfl
  cases hh with
  | @call h s env m hh =>
    have hi := hist_inv hh
    simp only [callOf] at ha ⊢
    revert ha
    unfold recv
    split
    · intro ha; cases ha
    · cases m <;> try (intro ha; cases ha)
      · rename_i realm authID ms ex roles
        simp only
        intro ha
        refine .inl ⟨realm, authID, ms, ex, ⟨roles, rfl⟩, ?_⟩
        revert ha
        fun_cases recvHello env s realm authID ms ex
        all_goals simp only [hw]
        all_goals intro ha
        all_goals simp_all +zetaDelta [Asks]
        all_goals obtain ⟨rfl, -⟩ := ha
        all_goals simp [newRequest, newCryptoSignRequest, mAnonymous, mCRA, mCryptoSign]
        all_goals exact ⟨by assumption, asStr_inv (by assumption)⟩
      · rename_i sig ex
        simp only
        by_cases hst : s.st = .challengeSent
        · simp only [Inv, hst] at hi
          obtain ⟨-, h1, c, h2, realm, authID, ms, ex, rfl, ha1, _, _, hmsg, hhello, _, hf⟩ := hi
          intro ha
          refine .inr ⟨sig, _, h1, c, h2, realm, authID, ms, ex, some [], rfl, rfl, ha1, hmsg, ?_⟩
          rw [recvAuthenticate, if_neg (by simp [hst]), hhello] at ha
          split at ha
          · rename_i hm
            have hq : newTicketRequest realm authID ex sig = q := by
              simp only at ha
              split at ha <;> simp only [hw, Option.some.injEq, Prod.mk.injEq] at ha <;> exact ha.1
            rcases hf with ⟨_, hout⟩ | ⟨hm', _⟩ | ⟨hm', _⟩
            · subst hq
              exact ⟨hout, ⟨rfl, rfl, rfl, rfl⟩, rfl, rfl⟩
            · rw [hm] at hm'; exact absurd hm' (by decide)
            · rw [hm] at hm'; exact absurd hm' (by decide)
          · exfalso
            repeat' split at ha
            all_goals first | cases ha | (rw [hw] at ha; cases ha)
        · intro ha
          rw [recvAuthenticate, if_pos hst] at ha
          cases ha

namespace Demo
/-- The authenticator of `env`, but the ticket "old" is refused. -/
def strict : Env := { env [] with authn := fun q => if q.ticket = some (str "old") then .err (str "expired") else (env []).authn q }
/-- HELLO, a ticket that is refused. -/
def ticketRun : List (Env × Msg) := [(strict, hello mTicket none), (strict, .authenticate (str "old") none)]
end Demo

/-- The hypotheses of `C128_refused` and, for AUTHENTICATE, of `C128_question` are met. -/
example : ∃ w h s q, Hist Demo.cr false (w :: h) s ∧ w.msg.kind = .authenticate ∧ w.asked = some (q, .err (str "expired")) :=
  ⟨_, _, _, _, runAll_hist Demo.cr false Demo.ticketRun, rfl, rfl⟩

/-- Those of `C128_question` for HELLO, with a public key. -/
example : ∃ w h s q r, Hist Demo.cr false (w :: h) s ∧ w.msg.kind = .hello ∧ q.publicKey = some (str "00") ∧ w.asked = some (q, .ok r) :=
  ⟨_, _, _, _, _, runAll_hist Demo.cr false [(Demo.env [], Demo.hello mCryptoSign (some [(str "pubkey", .str (str "00"))]))], rfl, rfl, rfl⟩

/-- Another authenticator to which `C128_one_question` applies: it refuses all questions but one. -/
example : recv Demo.cr { Demo.env [] with authn := fun q => if q.method = mCRA then (Demo.env []).authn q else .err [] } (init false) (Demo.hello mCRA none) =
    recv Demo.cr (Demo.env []) (init false) (Demo.hello mCRA none) :=
  C128_one_question _ _ _ _ _ fun q a h => by
    have : newRequest (str "realm1") (str "joe") none mCRA = q ∧ (Demo.env []).authn q = a := by
      have h' := recv_asked _ _ _ _ _ _ h
      simp only [recv, init, Demo.hello, newHello, recvHello] at h
      exact ⟨by injection h with h; injection h, h'⟩
    obtain ⟨rfl, h2⟩ := this
    exact h2

/-- **C28** While no CHALLENGE or WELCOME was sent: a HELLO that proposes methods none of which the server allows is answered with an ABORT that names all of them,
and there is no session. -/
theorem C28_refused {cr : Crypto} {static : Bool} {h : List Call} {w : Call} {s : State} {realm authID : Str} {ms : List Str} {ex : GoMap}
    (hh : Hist cr static (w :: h) s) (h0 : OnlyAborts h) (hm : IsHello w.msg realm authID (some ms) ex) (hne : ms ≠ [])
    (hno : ∀ m ∈ ms, m ∉ w.env.methods) :
    w.out = .ok (.abort (some []) (str "wamp.error.authentication_failed")
      (some [.str (str "server does not have [" ++ (str " ").intercalate ms ++ str "] auth enabled")]) none) ∧ s.details = none := by
  cases hh with
  | @call h s env m hh =>
    obtain ⟨roles, hm⟩ := hm
    simp only [callOf] at hm hno ⊢
    subst hm
    have hi := hist_inv hh
    unfold Inv at hi
    have hst : s.st = .none ∧ s.details = none := by
      split at hi
      · rename_i e; exact ⟨e, hi.1⟩
      · exfalso
        obtain ⟨-, a, d, b, realm, authID, ms, ex, rfl, -, -, -, hrest⟩ := hi
        obtain ⟨e, he⟩ := challengeFacts_out hrest.2.2.2
        have := h0 d (by simp) _ he
        cases this
      · exfalso
        obtain ⟨a, w', b, id', realm, method, r, aex, rfl, -, -, hout, -⟩ := hi
        have := h0 w' (by simp) _ hout
        cases this
    have hf : ms.find? (fun p => env.methods.contains p) = none := by
      rw [List.find?_eq_none]
      intro x hx
      simpa using hno x hx
    have htw : ∀ (l : List Str), (∀ m ∈ l, m ∉ env.methods) → l.takeWhile (fun p => !env.methods.contains p) = l := by
      intro l hl
      induction l with
      | nil => rfl
      | cons x l ih =>
        have hx : env.methods.contains x = false := by simpa using hl x (by simp)
        rw [List.takeWhile_cons, hx]
        simp only [Bool.not_false, if_true]
        rw [ih fun m hm => hl m (by simp [hm])]
    have hlen : ms.length ≠ 0 := fun e => hne (List.length_eq_zero_iff.1 e)
    have hsel : selectAuthMethod env.methods ms = none := by
      simp only [selectAuthMethod, hlen, if_false, hf]
    have hr : recv cr env s (.hello realm authID (some ms) ex roles) =
        ⟨s, .ok (abortMsg (unsupportedText ms)), none⟩ := by
      simp only [recv, reduceCtorEq, if_false, recvHello, hst.1, ne_eq, not_true_eq_false, Option.getD_some, hsel, unsupportedMethods, htw ms hno]
    rw [hr]
    exact ⟨rfl, hst.2⟩

/-- Two methods are proposed, the server allows another one. -/
example : ∃ w h s, Hist Demo.cr false (w :: h) s ∧ OnlyAborts h ∧ IsHello w.msg (str "r") (str "joe") (some [mTicket, mCRA]) none ∧
    (∀ m ∈ [mTicket, mCRA], m ∉ w.env.methods) ∧
    w.out = .ok (.abort (some []) (str "wamp.error.authentication_failed")
      (some [.str (str "server does not have [ticket wampcra] auth enabled")]) none) :=
  ⟨_, _, _, runAll_hist Demo.cr false [({ Demo.env [] with methods := [mCryptoSign] }, .hello (str "r") (str "joe") (some [mTicket, mCRA]) none none)],
    (fun _ h => nomatch h), ⟨none, rfl⟩, by decide +kernel, rfl⟩

end Wamp.Acceptor
