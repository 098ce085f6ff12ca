import Verif.Model.HandshakeText
import Verif.Spec.HandshakeText
import Verif.Props.Acceptor
import Verif.Props.Joiner
import Verif.Props.ErrorText
/-!
# C157: the errors during a login state facts
-/
namespace Wamp.HandshakeText
open Wamp.RouterText Wamp.Spec.RouterText Wamp.Spec.HandshakeText

section
open Wamp.Acceptor

private theorem welcome_no_err (s : State) (id : Nat) (r : Option AuthResp) (e : GoMap) (x : Option (AuthReq × AuthOut)) :
    (sendWelcome s id r e x).res ≠ .err := by
  unfold sendWelcome
  split <;> simp

private theorem hello_err (env : Env) (cause : Str) (s : State) (realm authID : Str) (ms : Option (List Str)) (ex : GoMap) :
    (recvHello env s realm authID ms ex).res = .err ↔ ∃ t, helloError env cause s realm authID ms ex = some t := by
  unfold recvHello helloError
  split
  · simp
  · cases selectAuthMethod env.methods (ms.getD []) with
    | none => simp
    | some am =>
      simp only
      split
      · cases env.authn (newRequest realm authID ex am) <;> simp [welcome_no_err]
      · split
        · simp
        · split
          · cases env.authn (newRequest realm authID ex am) with
            | err t => simp
            | nilResp => simp
            | ok r =>
              simp only
              cases r.cra with
              | none => simp
              | some i => cases env.craChallenge <;> simp
          · split
            · cases ex.get (str "pubkey") with
              | none => simp
              | some v =>
                simp only
                cases v.asStr? with
                | none => simp
                | some pk =>
                  simp only
                  split
                  · simp
                  · cases env.authn (newCryptoSignRequest realm authID ex pk) with
                    | err t => simp
                    | nilResp => cases env.csChallenge <;> simp
                    | ok r => cases env.csChallenge <;> simp
            · simp

private theorem authenticate_err (cr : Crypto) (env : Env) (s : State) (sig : Str) (ex : GoMap) :
    (recvAuthenticate cr env s sig ex).res = .err ↔ ∃ t, authenticateError s = some t := by
  unfold recvAuthenticate authenticateError
  split
  · simp
  · split
    · cases s.hello with
      | none => simp
      | some hi =>
        simp only
        cases env.authn (newTicketRequest hi.realm hi.authID hi.authExtra sig) <;> simp [welcome_no_err]
    · split
      · cases s.response.bind (·.cra) with
        | none => simp
        | some i =>
          simp only
          cases craKey cr i with
          | ok key => simp only; split <;> simp [welcome_no_err]
          | err => simp
          | panic => simp
      · split
        · cases s.request.bind (·.publicKey) with
          | none => simp
          | some pk =>
            simp only
            cases hexDecode pk with
            | none => simp
            | some key => simp only; split <;> simp [welcome_no_err]
        · simp

private theorem acceptor_err (cr : Crypto) (env : Env) (cause : Str) (s : State) (m : Msg) :
    (recv cr env s m).res = .err ↔ ∃ t, acceptorError env cause s m = some t := by
  unfold recv acceptorError
  split
  · simp
  · cases m
    case hello realm authID ms ex roles => exact hello_err env cause s realm authID ms ex
    case authenticate sig ex => exact authenticate_err cr env s sig ex
    all_goals simp

private theorem kind_name (m : Msg) : typeName m = str "*messages." ++ str (goName m.kind) := by
  cases m <;> (simp only [typeName, Msg.kind, goName]; decide +kernel)

/-- The first proposed method that is allowed. -/
private theorem selected {allowed : List Str} {ms : Option (List Str)} {am : Str} (h : selectAuthMethod allowed (ms.getD []) = some am)
    (hn : am ≠ mAnonymous) :
    ∃ l before after, ms = some l ∧ l = before ++ am :: after ∧ am ∈ allowed ∧ ∀ x ∈ before, x ∉ allowed := by
  unfold selectAuthMethod at h
  split at h
  · cases h; exact absurd rfl hn
  · rename_i hl
    cases ms with
    | none => exact absurd rfl hl
    | some l =>
      simp only [Option.getD_some] at h
      split at h
      · cases h
      · rename_i m hm
        split at h
        · cases h
        · cases h
          obtain ⟨h1, before, after, rfl, h2⟩ := List.find?_eq_some_iff_append.1 hm
          refine ⟨_, before, after, rfl, rfl, List.contains_iff_mem.1 h1, fun x hx hc => ?_⟩
          have := h2 x hx
          rw [List.contains_iff_mem.2 hc] at this
          cases this

/-- **C157** (acceptors). After every history, whatever the message and whatever authenticator and random source do: `ReceiveMessage` returns an
error exactly if `acceptorError` has a text, and the text states a fact.  In particular no error ever says that AUTHENTICATE came for an
unexpected method.  What is missing is the type of a public key that is no text (`C157_pubkey_refuted`). -/
theorem C157_acceptor_partial {cr : Crypto} {static : Bool} {h : List Call} {s : State} (hh : Hist cr static h s) (env : Env) (cause : Str) (m : Msg) :
    ((recv cr env s m).res = .err ↔ ∃ t, acceptorError env cause s m = some t) ∧
    ∀ t, acceptorError env cause s m = some t → AcceptorSays cause h (callOf cr env s m) t := by
  refine ⟨acceptor_err cr env cause s m, fun t ht => ?_⟩
  have hi := hist_inv hh
  have fresh : s.st = .none → OnlyAborts h := by
    intro hs; simp only [Acceptor.Inv, hs] at hi; exact hi.2
  have noWelcome : s.st ≠ .welcomeSent → ∀ c ∈ h, ¬c.answered .welcome := by
    intro hs
    cases hst : s.st with
    | none => exact not_welcome_of_onlyAborts (fresh hst)
    | challengeSent => simp only [Acceptor.Inv, hst] at hi; exact not_welcome_of_outstanding hi.2
    | welcomeSent => exact absurd hst hs
  unfold acceptorError at ht
  split at ht
  · rename_i hs
    cases ht
    simp only [Acceptor.Inv, hs] at hi
    obtain ⟨h1, w, h2, id, realm, method, r, aex, rfl, _, _, hout, _⟩ := hi
    exact .established w (by simp) ⟨_, hout, rfl⟩
  · rename_i hs
    cases m
    case hello realm authID ms ex roles =>
      simp only [helloError] at ht
      split at ht
      · rename_i hn
        have hst : s.st = .challengeSent := by
          cases hst : s.st with
          | none => exact absurd hst hn
          | challengeSent => rfl
          | welcomeSent => exact absurd hst hs
        have hno := noWelcome hs
        simp only [Acceptor.Inv, hst] at hi
        obtain ⟨-, h1, c, h2, _, _, _, _, rfl, _, _, _, _, _, _, hf⟩ := hi
        obtain ⟨e, he⟩ := challengeFacts_out hf
        rw [hst] at ht
        have : str "state must be " ++ dec (stateNumber .none) ++ str " when processing HELLO but was " ++ dec (stateNumber .challengeSent) =
            str "state must be 0 when processing HELLO but was 1" := by decide +kernel
        rw [this] at ht
        cases ht
        exact .helloAgain c rfl (by simp) ⟨_, he, rfl⟩ hno
      · rename_i hn
        have hst : s.st = .none := Classical.not_not.1 hn
        have hcall : ∀ x, recvHello env s realm authID ms ex = x → (callOf cr env s (.hello realm authID ms ex roles)).asked = x.asked := by
          intro x hx
          simp only [callOf, recv, if_neg hs, hx]
        cases hsel : selectAuthMethod env.methods (ms.getD []) with
        | none => rw [hsel] at ht; cases ht
        | some am =>
          rw [hsel] at ht
          simp only at ht
          split at ht
          · cases ht
          · rename_i h1
            split at ht
            · cases ht
            · rename_i h2
              obtain ⟨l, before, after, rfl, hl, ha, hb⟩ := selected hsel h1
              have hmem : am ∈ l := by rw [hl]; simp
              split at ht
              · rename_i h3
                subst h3
                cases hau : env.authn (newRequest realm authID ex mCRA) with
                | err t' => rw [hau] at ht; cases ht
                | nilResp =>
                  rw [hau] at ht
                  cases ht
                  refine .response (newRequest realm authID ex mCRA) .nilResp rfl (hcall _ rfl |>.trans ?_) rfl (.inl rfl)
                  simp only [recvHello, hst, hsel, hau, if_neg h1, if_neg h2, if_true, ne_eq, not_true, if_false]
                | ok r =>
                  rw [hau] at ht
                  simp only at ht
                  split at ht
                  · rename_i hc
                    cases ht
                    refine .response (newRequest realm authID ex mCRA) (.ok r) rfl (hcall _ rfl |>.trans ?_) rfl (.inr ⟨r, rfl, hc⟩)
                    simp only [recvHello, hst, hsel, hau, hc, if_neg h1, if_neg h2, if_true, ne_eq, not_true, if_false]
                  · rename_i i hc
                    split at ht
                    · cases ht
                    · rename_i hch
                      cases ht
                      have hch : env.craChallenge = none := by cases hx : env.craChallenge <;> simp_all
                      refine .random (newRequest realm authID ex mCRA) (.ok r) rfl (hcall _ rfl |>.trans ?_) (by simp) (.inl ⟨rfl, hch⟩)
                      simp only [recvHello, hst, hsel, hau, hc, hch, if_neg h1, if_neg h2, if_true, ne_eq, not_true, if_false]
              · rename_i h3
                split at ht
                · rename_i h4
                  subst h4
                  split at ht
                  · rename_i hk
                    cases ht
                    exact .noKey realm authID l ex ⟨roles, rfl⟩ hmem ha hk
                  · rename_i v hk
                    split at ht
                    · rename_i hv
                      have : str "pubkey must be a string in authextra, was " ++ str "string" =
                          str "pubkey must be a string in authextra, was string" := by decide +kernel
                      rw [this] at ht
                      cases ht
                      exact .badKey realm authID l ex v ⟨roles, rfl⟩ hmem ha hk (by rintro x rfl; cases hv)
                    · rename_i pk hv
                      have hv' : v = .str pk := by cases v <;> simp [Val.asStr?] at hv; rw [hv]
                      subst hv'
                      split at ht
                      · rename_i hpk
                        cases ht
                        subst hpk
                        exact .emptyKey realm authID l ex ⟨roles, rfl⟩ hmem ha hk
                      · rename_i hpk
                        have go : ∀ a, env.authn (newCryptoSignRequest realm authID ex pk) = a → (∀ x, a ≠ .err x) → env.csChallenge = none →
                            AcceptorSays cause h (callOf cr env s (.hello realm authID (some l) ex roles)) cause := by
                          intro a hau hne hch
                          refine .random (newCryptoSignRequest realm authID ex pk) a rfl (hcall _ rfl |>.trans ?_) hne (.inr ⟨rfl, hch⟩)
                          simp only [recvHello, hst, hsel, hk, hv, if_neg h1, if_neg h2, if_neg h3, if_neg hpk, if_true, ne_eq, not_true, if_false]
                          cases a with
                          | err x => exact absurd rfl (hne x)
                          | nilResp => simp only [hau, hch]
                          | ok r => simp only [hau, hch]
                        have hch : env.csChallenge.isSome ≠ true → env.csChallenge = none := by cases env.csChallenge <;> simp
                        cases hau : env.authn (newCryptoSignRequest realm authID ex pk) with
                        | err x => rw [hau] at ht; cases ht
                        | nilResp =>
                          rw [hau] at ht
                          simp only at ht
                          split at ht
                          · cases ht
                          · rename_i hc; cases ht; exact go _ hau (by simp) (hch hc)
                        | ok r =>
                          rw [hau] at ht
                          simp only at ht
                          split at ht
                          · cases ht
                          · rename_i hc; cases ht; exact go _ hau (by simp) (hch hc)
                · rename_i h4
                  cases ht
                  refine .method realm authID l ex before after am (fresh hst) ⟨roles, rfl⟩ hl ha hb ?_
                  simp only [known, List.mem_cons, List.not_mem_nil, or_false, not_or]
                  exact ⟨h1, h2, h3, h4⟩
    case authenticate sig ex =>
      simp only [authenticateError] at ht
      split at ht
      · rename_i hn
        have hst : s.st = .none := by
          cases hst : s.st with
          | none => rfl
          | challengeSent => exact absurd hst hn
          | welcomeSent => exact absurd hst hs
        rw [hst] at ht
        have : str "received AUTHENTICATE while state was " ++ dec (stateNumber .none) = str "received AUTHENTICATE while state was 0" := by
          decide +kernel
        rw [this] at ht
        cases ht
        exact .authenticate rfl (fresh hst)
      · rename_i hn
        have hst : s.st = .challengeSent := Classical.not_not.1 hn
        simp only [Acceptor.Inv, hst] at hi
        obtain ⟨-, h1, c, h2, realm, authID, ms, hex, rfl, _, _, _, hc, _, _, hf⟩ := hi
        obtain ⟨e, he⟩ := challengeFacts_out hf
        split at ht
        · cases ht
        · rename_i n1
          split at ht
          · cases ht
          · rename_i n2
            rcases hf with ⟨hm, _⟩ | ⟨hm, _⟩ | ⟨hm, pk, a, hk, _, hr, _⟩
            · exact absurd hm n1
            · exact absurd hm n2
            · rw [if_pos hm, hr] at ht
              simp only [Option.bind_some, newCryptoSignRequest] at ht
              split at ht
              · cases ht
              · rename_i hd
                cases ht
                exact .key c realm authID ms hex pk rfl (by simp) ⟨_, he, rfl⟩ hc hk (by cases hx : hexDecode pk <;> simp_all)
    all_goals
      simp only at ht
      rw [kind_name, ← List.append_assoc] at ht
      cases ht
      exact .other (by simp [callOf, Msg.kind]) (by simp [callOf, Msg.kind]) (noWelcome hs)

/-- **C157 is false** for public keys that are no text: the error shows the type it should have, not the one it has. -/
theorem C157_pubkey_refuted {cr : Crypto} {static : Bool} (env : Env) (cause : Str) (realm authID : Str) (v : Val) (hv : v.asStr? = none)
    (hm : str "cryptosign" ∈ env.methods) :
    ∃ h s, Hist cr static h s ∧ acceptorError env cause s (newHello realm authID (some [(str "pubkey", v)]) none (some [str "cryptosign"])) =
      some (str "pubkey must be a string in authextra, was string") := by
  refine ⟨[], _, .new, ?_⟩
  have hsel : selectAuthMethod env.methods ((some [str "cryptosign"]).getD []) = some (str "cryptosign") := by
    simp only [selectAuthMethod, Option.getD_some, List.find?_cons, List.contains_iff_mem.2 hm]
    rfl
  have hk : GoMap.get (some [(str "pubkey", v)]) (str "pubkey") = some v := rfl
  have ht : str "pubkey must be a string in authextra, was " ++ str "string" = str "pubkey must be a string in authextra, was string" := by
    decide +kernel
  rw [← ht]
  have n1 : str "cryptosign" ≠ mAnonymous := by decide
  have n2 : str "cryptosign" ≠ mTicket := by decide
  have n3 : str "cryptosign" ≠ mCRA := by decide
  have n4 : str "cryptosign" = mCryptoSign := rfl
  have n0 : Acceptor.St.none ≠ .welcomeSent := by decide
  simp only [acceptorError, newHello, helloError, Acceptor.init, hsel, hk, hv, if_neg n1, if_neg n2, if_neg n3, if_pos n4, if_neg n0, ne_eq, not_true,
    if_false]

/-- A WELCOME was sent: nothing more is accepted. -/
example : acceptorError (Demo.env []) [] (runAll Demo.cr false Demo.craRun).2 (Demo.hello mCRA none) =
    some (str "session was established, not expecting any new messages") := by decide +kernel
/-- A CHALLENGE was sent: no second HELLO. -/
example : acceptorError (Demo.env []) [] (runAll Demo.cr false (Demo.craRun.take 1)).2 (Demo.hello mCRA none) =
    some (str "state must be 0 when processing HELLO but was 1") := by decide +kernel
/-- AUTHENTICATE without HELLO; a HELLO without key; a method allowed but unknown; a CALL. -/
example : acceptorError (Demo.env []) [] (Acceptor.init false) (.authenticate [] none) = some (str "received AUTHENTICATE while state was 0") ∧
    acceptorError (Demo.env []) [] (Acceptor.init false) (Demo.hello mCryptoSign none) = some (str "pubkey missing in authextra") ∧
    acceptorError { Demo.env [] with methods := [str "x"] } [] (Acceptor.init false) (Demo.hello (str "x") none) =
      some (str "received HELLO for unexpected authmethod x") ∧
    acceptorError (Demo.env []) [] (Acceptor.init false) (.call 1 none [] none none .none) = some (str "received unexpected message *messages.Call") := by
  decide +kernel
/-- A key that is no hexadecimal number is found out at AUTHENTICATE. -/
example : acceptorError (Demo.env []) [] (runAll Demo.cr false [(Demo.env [], Demo.hello mCryptoSign (some [(str "pubkey", .str (str "xyz"))]))]).2
    (.authenticate [] none) = some (str "failed to decode public key") := by decide +kernel

end

section
open Wamp.Joiner

/-- `ReceiveMessage` of a joiner returns an error exactly if there is a text. -/
private theorem joiner_err (shown : Val → Str) (order : List Str) (a : Auth) (cause : Str) (s : State) (m : Msg) :
    (recv a s m).2 = .err ↔ ∃ t, joinerError shown order a cause s m = some t := by
  cases m
  case welcome id d =>
    simp only [recv, recvWelcome, joinerError]
    split
    · simp
    · split <;> simp
  case challenge q x =>
    simp only [recv, joinerError]
    split
    · simp
    · cases a.authenticate q x <;> simp
  all_goals simp [recv, joinerError]

/-- **C157** (joiners). After every history, whatever the message and the authenticator: `ReceiveMessage` returns an error exactly if `joinerError`
has a text; for an ABORT it is the one of C147, for all other messages the texts are exactly those that state a fact. -/
theorem C157_joiner {realm : Str} {static : Bool} {h : List Event} {s : State} (hh : Hist realm static h s) (shown : Val → Str) (order : List Str)
    (a : Auth) (cause : Str) (m : Msg) :
    ((recv a s m).2 = .err ↔ ∃ t, joinerError shown order a cause s m = some t) ∧
    (∀ d r x k, m = .abort d r x k → joinerError shown order a cause s m = some (abortText shown order r x k)) ∧
    (m.kind ≠ .abort → ∀ t, joinerError shown order a cause s m = some t ↔ JoinerSays a cause h m t) := by
  obtain ⟨i1, i2, -, -⟩ := hist_state hh
  have nj : (s.st ≠ .helloSent ∧ s.st ≠ .authenticateSent) ↔ ¬Joining h := by
    rw [← i2, not_or]
  have nf : s.st ≠ .helloSent ↔ ¬Fresh h := by rw [ne_eq, i1]
  refine ⟨?_, ?_, ?_⟩
  · exact joiner_err shown order a cause s m
  · rintro d r x k rfl; rfl
  · intro hm t
    cases m
    case welcome id d =>
      simp only [joinerError]
      constructor
      · intro ht
        split at ht
        · rename_i hs; cases ht; exact .welcome id d (nj.1 hs)
        · cases ht
      · intro hs
        cases hs with
        | welcome _ _ hj => rw [if_pos (nj.2 hj)]
        | other _ hk => simp [Msg.kind] at hk
    case challenge q x =>
      simp only [joinerError]
      constructor
      · intro ht
        split at ht
        · rename_i hs; cases ht; exact .challenge q x (nf.1 hs)
        · rename_i hs
          split at ht
          · rename_i ha; cases ht; exact .authenticator q x (i1.1 (Classical.not_not.1 hs)) ha
          · cases ht
      · intro hs
        cases hs with
        | challenge _ _ hf => rw [if_pos (nf.2 hf)]
        | authenticator _ _ hf ha => rw [if_neg (fun hn => nf.1 hn hf), ha]
        | other _ hk => simp [Msg.kind] at hk
    case abort => exact absurd rfl hm
    all_goals
      simp only [joinerError, Option.some.injEq]
      constructor
      · rintro rfl; exact .other _ (by simp [Msg.kind])
      · intro hs
        cases hs with
        | other => rfl

/-- A joiner that was not asked to join refuses CHALLENGE and WELCOME; one that did accepts them. -/
example : joinerError (fun _ => []) [] Demo.auth [] (init (str "r") false) (.challenge mTicket none) = some (str "received CHALLENGE when it was not expected") ∧
    joinerError (fun _ => []) [] Demo.auth [] (init (str "r") false) (.welcome 1 Demo.det) = some (str "received WELCOME when it was not expected") ∧
    joinerError (fun _ => []) [] Demo.auth [] (sendHello Demo.codec Demo.auth (init (str "r") false)).1 (.welcome 1 Demo.det) = none ∧
    joinerError (fun _ => []) [] Demo.auth [] (init (str "r") false) (.call 1 none [] none none .none) = some (str "received unknown message") :=
  ⟨rfl, rfl, rfl, rfl⟩

end

/-- **C157** (bytes). `Receive` of an acceptor or a joiner returns an error exactly if there is a text: for bytes that `Deserialize` rejects the text
of `Deserialize` (C154), which the joiner introduces; for a message that `ReceiveMessage` refuses the text of that; and otherwise, if the answer cannot
be serialized, the text of `Serialize`. -/
theorem C157_bytes (types : Nat → Str) (shown : Val → Str) (order again : Kind → List (Nat × Vd))
    (h1 : ∀ k, (order k).Perm k.vspec.spec) (h2 : ∀ k, (again k).Perm k.vspec.spec) (library : Str → Str) (c : Codec) (b encoder cause : Str)
    (cr : Crypto) (env : Acceptor.Env) (s : Acceptor.State) (a : Joiner.Auth) (j : Joiner.State) (keys : List Str) :
    ((Acceptor.receive cr c env s b).2 = .err ↔
      ∃ t, acceptorReceiveError cr c env cause encoder s (ErrorText.deserialize types shown order again library c b) = some t) ∧
    ((Joiner.receive c a j b).2 = .err ↔
      ∃ t, joinerReceiveError c shown keys a cause encoder j (ErrorText.deserialize types shown order again library c b) = some t) ∧
    (∀ t, ErrorText.deserialize types shown order again library c b = .err t →
      acceptorReceiveError cr c env cause encoder s (ErrorText.deserialize types shown order again library c b) = some t ∧
      joinerReceiveError c shown keys a cause encoder j (ErrorText.deserialize types shown order again library c b) =
        some (str "joiner: failed to deserialize: " ++ t)) ∧
    (∀ m, c.deserialize b = .ok m →
      (∀ t, acceptorError env cause s m = some t →
        acceptorReceiveError cr c env cause encoder s (ErrorText.deserialize types shown order again library c b) = some t) ∧
      (∀ t, joinerError shown keys a cause j m = some t →
        joinerReceiveError c shown keys a cause encoder j (ErrorText.deserialize types shown order again library c b) = some t) ∧
      (∀ r, (Acceptor.recv cr env s m).res = .ok r → c.serialize r = .err →
        acceptorReceiveError cr c env cause encoder s (ErrorText.deserialize types shown order again library c b) = some encoder) ∧
      (∀ r, (Joiner.recv a j m).2 = .ok (some r) → c.serialize r = .err →
        joinerReceiveError c shown keys a cause encoder j (ErrorText.deserialize types shown order again library c b) = some encoder)) := by
  have hf := ErrorText.C154_results types shown order again h1 h2 library c b
  generalize ErrorText.deserialize types shown order again library c b = x at hf
  cases x with
  | err t =>
    simp only [ErrorText.TRes.forget] at hf
    refine ⟨?_, ?_, ?_, ?_⟩
    · simp [Acceptor.receive, ← hf, acceptorReceiveError]
    · simp [Joiner.receive, ← hf, joinerReceiveError]
    · intro t' ht; cases ht; exact ⟨rfl, rfl⟩
    · intro m hm; rw [← hf] at hm; cases hm
  | panic =>
    simp only [ErrorText.TRes.forget] at hf
    refine ⟨?_, ?_, ?_, ?_⟩
    · simp [Acceptor.receive, ← hf, acceptorReceiveError]
    · simp [Joiner.receive, ← hf, joinerReceiveError]
    · intro t' ht; cases ht
    · intro m hm; rw [← hf] at hm; cases hm
  | ok m =>
    simp only [ErrorText.TRes.forget] at hf
    have ha := acceptor_err cr env cause s m
    have hj := joiner_err shown keys a cause j m
    refine ⟨?_, ?_, ?_, ?_⟩
    · simp only [Acceptor.receive, ← hf, acceptorReceiveError]
      cases hx : acceptorError env cause s m with
      | some t => simp [ha.2 ⟨t, hx⟩]
      | none =>
        cases hr : (Acceptor.recv cr env s m).res with
        | err => obtain ⟨t, ht⟩ := ha.1 hr; rw [hx] at ht; cases ht
        | panic => simp
        | ok r => simp only [Res.bind_ok, Codec.serialize]; cases c.enc r.marshal <;> simp [Res.ofOption]
    · simp only [Joiner.receive, ← hf, joinerReceiveError]
      cases hx : joinerError shown keys a cause j m with
      | some t => simp [hj.2 ⟨t, hx⟩]
      | none =>
        cases hr : (Joiner.recv a j m).2 with
        | err => obtain ⟨t, ht⟩ := hj.1 hr; rw [hx] at ht; cases ht
        | panic => simp
        | ok r =>
          cases r with
          | none => simp
          | some r => simp only [Res.bind_ok, Codec.serialize]; cases c.enc r.marshal <;> simp [Res.ofOption]
    · intro t ht; cases ht
    · intro m' hm
      rw [← hf] at hm; cases hm
      refine ⟨?_, ?_, ?_, ?_⟩
      · intro t ht; simp only [acceptorReceiveError, ht]
      · intro t ht; simp only [joinerReceiveError, ht]
      · intro r hr hs
        have hx : acceptorError env cause s m = none := by
          cases hx : acceptorError env cause s m with
          | none => rfl
          | some t => rw [ha.2 ⟨t, hx⟩] at hr; cases hr
        simp only [acceptorReceiveError, hx, hr]
        simp only [Codec.serialize] at hs
        cases he : c.enc r.marshal <;> simp_all [Res.ofOption]
      · intro r hr hs
        have hx : joinerError shown keys a cause j m = none := by
          cases hx : joinerError shown keys a cause j m with
          | none => rfl
          | some t => rw [hj.2 ⟨t, hx⟩] at hr; cases hr
        simp only [joinerReceiveError, hx, hr]
        simp only [Codec.serialize] at hs
        cases he : c.enc r.marshal <;> simp_all [Res.ofOption]

/-- **C157** (`SendHello` and `SessionDetails`). `SendHello` returns an error exactly if the HELLO cannot be serialized, and says so; `SessionDetails`
of acceptor and joiner exactly if there are none yet, and says so. -/
theorem C157_other (c : Codec) (a : Joiner.Auth) (encoder : Str) (j : Joiner.State) (s : Acceptor.State) :
    ((Joiner.sendHello c a j).2 = .err ↔ sendHelloError c a encoder j = some (str "failed to serialize hello: " ++ encoder)) ∧
    (c.serialize (Joiner.helloMsg a j) ≠ .err ↔ sendHelloError c a encoder j = none) ∧
    (Joiner.sessionDetails j = .err ↔ detailsError j.details = some (str "session is not setup yet")) ∧
    (Acceptor.sessionDetails s = .err ↔ detailsError s.details = some (str "session is not setup yet")) := by
  refine ⟨?_, ?_, ?_, ?_⟩
  · simp only [Joiner.sendHello, sendHelloError, Codec.serialize]
    cases c.enc (Joiner.helloMsg a j).marshal <;> simp [Res.ofOption]
  · simp only [sendHelloError, Codec.serialize]
    cases c.enc (Joiner.helloMsg a j).marshal <;> simp [Res.ofOption]
  · simp only [Joiner.sessionDetails, detailsError]
    cases j.details <;> simp [Res.ofOption]
  · simp only [Acceptor.sessionDetails, detailsError]
    cases s.details <;> simp [Res.ofOption]

/-- No bytes are a message in the demonstration codec below; acceptor and joiner say so. -/
example : let c : Codec := ⟨fun _ => none, fun _ => none⟩
    let d := ErrorText.deserialize (fun _ => []) (fun _ => []) (fun k => k.vspec.spec) (fun k => k.vspec.spec) (fun _ => str "EOF") c []
    acceptorReceiveError Acceptor.Demo.cr c (Acceptor.Demo.env []) [] [] (Acceptor.init false) d = some (str "EOF") ∧
    joinerReceiveError c (fun _ => []) [] Joiner.Demo.auth [] [] (Joiner.init (str "r") false) d =
      some (str "joiner: failed to deserialize: EOF") ∧
    sendHelloError c Joiner.Demo.auth (str "EOF") (Joiner.init (str "r") false) = some (str "failed to serialize hello: EOF") :=
  ⟨rfl, rfl, rfl⟩

/-- **C157** (client authenticators). A built-in authenticator returns an error for a CHALLENGE exactly if `clientError` has a text: the anonymous
one always, the cryptosign one exactly if the challenge is missing, no text or not hexadecimal, the others never. -/
theorem C157_client (cr : Crypto) (a : ClientAuth) (x : GoMap) :
    (a.authenticate cr x = .err ↔ ∃ t, clientError a x = some t) ∧
    (∀ t, clientError a x = some t ↔
      (∃ i e, a = .anonymous i e) ∧ t = str "func Authenticate() must not be called for anonymous authentication" ∨
      (∃ i e seed, a = .cryptosign i e seed) ∧ hexDecode (x.text (str "challenge")) = none ∧ t = str "failed to sign challenge") := by
  cases a with
  | anonymous i e =>
    refine ⟨by simp [ClientAuth.authenticate, clientError], fun t => ?_⟩
    simp only [clientError, Option.some.injEq]
    constructor
    · rintro rfl; exact .inl ⟨⟨_, _, rfl⟩, rfl⟩
    · rintro (⟨_, rfl⟩ | ⟨⟨_, _, _, h⟩, _⟩)
      · rfl
      · cases h
  | ticket i e k => simp [ClientAuth.authenticate, clientError]
  | cra i e k =>
    have hd : ∀ salt it len, deriveCRAKey cr salt k it len ≠ .err := by
      intro salt it len
      unfold deriveCRAKey
      simp only
      generalize (if len = 0 then 32 else len) = n
      split <;> simp
    refine ⟨?_, by simp [clientError]⟩
    simp only [ClientAuth.authenticate, craAuthenticate, clientError]
    constructor
    · intro h
      exfalso
      split at h
      · generalize hx : deriveCRAKey cr (x.text (str "salt")) k _ _ = y at h
        cases y with
        | ok v => simp at h
        | err => exact hd _ _ _ hx
        | panic => simp at h
      · simp at h
    · rintro ⟨t, ht⟩; cases ht
  | cryptosign i e seed =>
    simp only [ClientAuth.authenticate, signCryptoSign, clientError]
    cases hexDecode (x.text (str "challenge")) with
    | none =>
      refine ⟨by simp [Res.ofOption], fun t => ?_⟩
      simp only [Option.isSome_none, Bool.false_eq_true, if_false, Option.some.injEq]
      constructor
      · rintro rfl; exact .inr ⟨⟨_, _, _, rfl⟩, trivial, rfl⟩
      · rintro (⟨⟨_, _, h⟩, _⟩ | ⟨_, _, rfl⟩)
        · cases h
        · rfl
    | some raw => simp [Res.ofOption]

/-- **C157** (keys). `NewCryptoSignAuthenticator` returns an error exactly if `newCryptoSignError` has a text: the key is not hexadecimal, or the
extra has a text as `pubkey` that is not the key's public key. -/
theorem C157_keys (cr : Crypto) (authID key : Str) (extra : GoMap) :
    (newCryptoSign cr authID key extra = .err ↔ ∃ t, newCryptoSignError cr key extra = some t) ∧
    (∀ t, newCryptoSignError cr key extra = some t ↔
      hexDecode key = none ∧ t = str "invalid private key" ∨
      (∃ seed pk, hexDecode key = some seed ∧ seed.length = 32 ∧ extra.get (str "pubkey") = some (.str pk) ∧ pk ≠ hexEncode (cr.pubOfSeed seed)) ∧
        t = str "provided pubkey does not correspond to the private key") := by
  have hget : extra.get (str "pubkey") = dget (extra.getD []) (str "pubkey") := by
    cases extra <;> rfl
  rw [hget]
  simp only [newCryptoSign, newCryptoSignError]
  cases hexDecode key with
  | none =>
    refine ⟨by simp, fun t => ?_⟩
    simp [eq_comm]
  | some raw =>
    simp only
    by_cases hl : raw.length = 32
    · simp only [hl, ne_eq, not_true, if_false]
      cases hd : dget (extra.getD []) (str "pubkey") with
      | none => simp
      | some v =>
        simp only [Option.getD_some]
        cases v
        case str val =>
          simp only
          by_cases hp : val = hexEncode (cr.pubOfSeed raw)
          · simp [hp, hl]
          · simp [hp, hl, eq_comm]
        all_goals simp
    · simp [hl]

/-- A key that is no hexadecimal number. -/
example : newCryptoSignError Acceptor.Demo.cr (str "xyz") none = some (str "invalid private key") := by decide +kernel
/-- A key with the wrong public key. -/
example : newCryptoSignError Acceptor.Demo.cr (hexEncode Acceptor.Demo.seed) (some [(str "pubkey", .str (str "00"))]) =
    some (str "provided pubkey does not correspond to the private key") := by decide +kernel

end Wamp.HandshakeText
