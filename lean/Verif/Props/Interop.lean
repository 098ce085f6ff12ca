import Verif.Spec.Interop
import Verif.Spec.Values
import Verif.Spec.Acceptor
import Verif.Props.Auth
import Verif.Props.Util
import Verif.Props.Acceptor
/-!
# C135: logins work with other implementations of WAMP
-/
namespace Wamp.Interop
open Wamp Wamp.Spec

/-- An integer on the wire: of any Go integer type, or a float64 as JSON gives it. -/
def IsNumber (v : Val) (n : Int) : Prop := IsGoInt v n ∨ v = .f64 (f64OfInt n)

theorem number_asInt {v : Val} {n : Int} (h : IsNumber v n) (h0 : 0 < n) (h1 : n ≤ 2 ^ 53) : asInt v = some n := by
  rcases h with (⟨k, rfl, -⟩ | ⟨k, m, rfl, rfl, -⟩) | rfl
  · cases k <;> simp [asInt]
    omega
  · cases k <;> simp [asInt] <;> omega
  · exact f64OfInt_asInt n (by omega) h1

/-- **C135** A WAMP-CRA client answers any router's CHALLENGE with the signature the specification asks for: without a salt, or with a salt,
an iteration count and a key length. -/
theorem C135_client_cra (cr : Crypto) (authID secret ch : Str) (ex : GoMap) :
    (ClientAuth.cra authID ex secret).authenticate cr (craChallengeExtra ch none) = .ok (craSignatureOf cr (craKeyOf cr secret none) ch, ex) ∧
    ∀ salt iv kv i k, salt ≠ [] → IsNumber iv i → IsNumber kv k → 0 < i → i ≤ 2 ^ 53 → 0 < k → k ≤ 2 ^ 53 →
      (ClientAuth.cra authID ex secret).authenticate cr (craChallengeExtra ch (some (salt, iv, kv))) =
        .ok (craSignatureOf cr (craKeyOf cr secret (some (salt, i, k.toNat))) ch, ex) := by
  constructor
  · rfl
  · intro salt iv kv i k hs hi hk i0 i1 k0 k1
    have e1 : GoMap.text (craChallengeExtra ch (some (salt, iv, kv))) (str "challenge") = ch := rfl
    have e2 : GoMap.text (craChallengeExtra ch (some (salt, iv, kv))) (str "salt") = salt := rfl
    have e3 : GoMap.get (craChallengeExtra ch (some (salt, iv, kv))) (str "iterations") = some iv := rfl
    have e4 : GoMap.get (craChallengeExtra ch (some (salt, iv, kv))) (str "keylen") = some kv := rfl
    have a : i ≠ 0 := by omega
    have b : k ≠ 0 := by omega
    have c : ¬ k < 0 := by omega
    simp only [ClientAuth.authenticate, craAuthenticate, e1, e2, e3, e4, Option.bind_some, number_asInt hi i0 i1, number_asInt hk k0 k1,
      Option.getD_some, ne_eq, hs, not_false_eq_true, if_true, deriveCRAKey, if_neg a, if_neg b, if_neg c]
    rfl

/-- **C135** When the CHALLENGE has a salt but no numbers, or zeros, or things that are not numbers, 1000 iterations and 32 bytes are assumed; and
so does the acceptor when its authenticator gives zeros. -/
theorem C135_defaults (cr : Crypto) (authID secret ch salt : Str) (ex : GoMap) (hs : salt ≠ []) :
    (ClientAuth.cra authID ex secret).authenticate cr (some [(str "challenge", .str ch), (str "salt", .str salt)]) =
      .ok (craSignatureOf cr (craKeyOf cr secret (some (salt, 1000, 32))) ch, ex) ∧
    (∀ iv kv, (IsNumber iv 0 ∨ NotNumber iv) → (IsNumber kv 0 ∨ NotNumber kv) →
      (ClientAuth.cra authID ex secret).authenticate cr (craChallengeExtra ch (some (salt, iv, kv))) =
        .ok (craSignatureOf cr (craKeyOf cr secret (some (salt, 1000, 32))) ch, ex)) ∧
    craKey cr ⟨secret, salt, 0, 0⟩ = .ok (craKeyOf cr secret (some (salt, 1000, 32))) := by
  have z : ∀ v, (IsNumber v 0 ∨ NotNumber v) → (asInt v).getD 0 = 0 := by
    rintro v ((h | rfl) | h)
    · rw [C10_asInt.1 v 0 h]; rfl
    · rw [f64OfInt_asInt 0 (by decide) (by decide)]; rfl
    · rw [C10_asInt.2.2.2.2 v h]; rfl
  refine ⟨?_, ?_, ?_⟩
  · have e1 : GoMap.text (some [(str "challenge", .str ch), (str "salt", .str salt)]) (str "challenge") = ch := rfl
    have e2 : GoMap.text (some [(str "challenge", .str ch), (str "salt", .str salt)]) (str "salt") = salt := rfl
    simp only [ClientAuth.authenticate, craAuthenticate, e1, e2, ne_eq, hs, not_false_eq_true, if_true]
    rfl
  · intro iv kv hi hk
    have e1 : GoMap.text (craChallengeExtra ch (some (salt, iv, kv))) (str "challenge") = ch := rfl
    have e2 : GoMap.text (craChallengeExtra ch (some (salt, iv, kv))) (str "salt") = salt := rfl
    have e3 : GoMap.get (craChallengeExtra ch (some (salt, iv, kv))) (str "iterations") = some iv := rfl
    have e4 : GoMap.get (craChallengeExtra ch (some (salt, iv, kv))) (str "keylen") = some kv := rfl
    simp only [ClientAuth.authenticate, craAuthenticate, e1, e2, e3, e4, Option.bind_some, z _ hi, z _ hk, ne_eq, hs, not_false_eq_true, if_true]
    rfl
  · simp only [craKey, if_neg hs]
    rfl

/-- A client that proposes one method which the server supports gets that method. -/
theorem select_one {methods : List Str} {m : Str} (h : m ∈ methods) (hm : m ≠ []) : selectAuthMethod methods [m] = some m := by
  simp [selectAuthMethod, h, hm]

/-- The numbers the server's authenticator gave, if it gave a salt. -/
def saltOf (i : CRAInfo) : Option (Str × Int × Nat) := if i.salt = [] then none else some (i.salt, i.iterations, i.keyLen.toNat)

/-- **C135** A router that uses the acceptor sends any WAMP-CRA client the CHALLENGE the specification asks for, and welcomes it exactly if the
signature is (base64 of) the one the specification asks for. -/
theorem C135_router_cra (cr : Crypto) (env env' : Acceptor.Env) (static : Bool) (realm authID ch sig : Str) (extra roles ex : GoMap) (r : AuthResp)
    (info : CRAInfo) (hm : mCRA ∈ env.methods) (hr : ∀ q, Acceptor.Asks q realm authID extra mCRA → env.authn q = .ok r)
    (hi : r.cra = some info) (hs : info.salt ≠ [] → 0 < info.iterations ∧ 0 < info.keyLen) (hch : env.craChallenge = some ch) :
    (Acceptor.recv cr env (Acceptor.init static) (.hello realm authID (some [mCRA]) extra roles)).res =
      .ok (.challenge mCRA (craChallengeExtra ch ((saltOf info).map fun p => (p.1, .int .int p.2.1, .int .int p.2.2)))) ∧
    ((∃ d, (Acceptor.recv cr env' (Acceptor.recv cr env (Acceptor.init static) (.hello realm authID (some [mCRA]) extra roles)).state
        (.authenticate sig ex)).res = .ok (.welcome env'.id d)) ↔
      b64Decode sig = some (cr.hmac (craKeyOf cr info.secret (saltOf info)) ch)) := by
  have hsel := select_one hm (by decide)
  have hq : env.authn (newRequest realm authID extra mCRA) = .ok r := hr _ ⟨rfl, rfl, rfl, rfl⟩
  have hkey : craKey cr info = .ok (craKeyOf cr info.secret (saltOf info)) := by
    unfold craKey saltOf
    by_cases h : info.salt = []
    · simp only [if_pos h, craKeyOf]
    · obtain ⟨h1, h2⟩ := hs h
      have a : info.iterations ≠ 0 := by omega
      have b : info.keyLen ≠ 0 := by omega
      have c : ¬ info.keyLen < 0 := by omega
      simp only [if_neg h, craKeyOf, deriveCRAKey, if_neg a, if_neg b, if_neg c]
  have hstep : Acceptor.recv cr env (Acceptor.init static) (.hello realm authID (some [mCRA]) extra roles) =
      ⟨{ Acceptor.init static with
          authMethod := mCRA, hello := some ⟨realm, authID, extra⟩, challenge := ch, response := some r, st := .challengeSent },
        .ok (newChallenge mCRA (some (Acceptor.craExtra ch info))), some (newRequest realm authID extra mCRA, .ok r)⟩ := by
    simp only [Acceptor.recv, Acceptor.recvHello, Acceptor.init, Option.getD_some, hsel, hq, hi, hch]
    rfl
  rw [hstep]
  constructor
  · unfold Acceptor.craExtra saltOf craChallengeExtra newChallenge
    by_cases h : info.salt = []
    · simp [h]
    · have := (hs h).2
      have e : ((info.keyLen.toNat : Nat) : Int) = info.keyLen := by omega
      simp [h, e]
  · rw [← C24_cra_soundness]
    simp only [Acceptor.recv, Acceptor.recvAuthenticate, Option.bind_some, hi, hkey]
    cases verifyCRA cr sig ch (craKeyOf cr info.secret (saltOf info)) with
    | true => exact ⟨fun _ => rfl, fun _ => ⟨_, rfl⟩⟩
    | false => exact ⟨(by rintro ⟨d, h⟩; cases h), fun h => by cases h⟩

/-- The signature the specification asks for is accepted, another client's MAC is not: a toy case. -/
example : ∃ cr env env' d, (Acceptor.recv cr env' (Acceptor.recv cr env (Acceptor.init false) (.hello (str "r") (str "joe") (some [mCRA]) none none)).state
      (.authenticate (craSignatureOf cr (craKeyOf cr (str "s3") (some (str "salt", 10, 16))) (str "text")) none)).res = .ok (.welcome 5 d) ∧
    mCRA ∈ env.methods ∧ env.craChallenge = some (str "text") :=
  ⟨Acceptor.Demo.cr, Acceptor.Demo.env (str "text"), { Acceptor.Demo.env [] with id := 5 }, _, by
    refine ⟨rfl, ?_, rfl⟩
    decide⟩

theorem hexEncode_append (a b : Str) : hexEncode (a ++ b) = hexEncode a ++ hexEncode b := by
  induction a with
  | nil => rfl
  | cons x a ih => simp only [List.cons_append, hexEncode, ih]

/-- **C135** A CryptoSign client answers any router's CHALLENGE, 32 bytes in hex, with the signature the specification asks for. -/
theorem C135_client_cryptosign (cr : Crypto) (authID seed ch : Str) (ex : GoMap) :
    (ClientAuth.cryptosign authID ex seed).authenticate cr (some [(str "challenge", .str (hexEncode ch))]) =
      .ok (cryptoSignOf cr seed ch, ex) := by
  have e : GoMap.text (some [(str "challenge", .str (hexEncode ch))]) (str "challenge") = hexEncode ch := rfl
  simp only [ClientAuth.authenticate, e, signCryptoSign, hexDecode_encode, cryptoSignOf, hexEncode_append]
  rfl

/-- **C135** A router that uses the acceptor sends any CryptoSign client its 32 random bytes in hex, and welcomes it if it answers with the
signature the specification asks for. -/
theorem C135_router_cryptosign (cr : Crypto) (hc : SigScheme cr) (env env' : Acceptor.Env) (static : Bool) (realm authID ch seed : Str)
    (roles ex : GoMap) (r : AuthResp) (hl : seed.length = 32) (hlc : ch.length = 32) (hm : mCryptoSign ∈ env.methods)
    (hr : ∀ q, Acceptor.Asks q realm authID (some [(str "pubkey", .str (hexEncode (cr.pubOfSeed seed)))]) mCryptoSign →
      q.publicKey = some (hexEncode (cr.pubOfSeed seed)) → env.authn q = .ok r)
    (hch : env.csChallenge = some (cryptoSignChallenge ch)) :
    (Acceptor.recv cr env (Acceptor.init static)
        (.hello realm authID (some [mCryptoSign]) (some [(str "pubkey", .str (hexEncode (cr.pubOfSeed seed)))]) roles)).res =
      .ok (.challenge mCryptoSign (some [(str "challenge", .str (hexEncode ch))])) ∧
    ∃ d, (Acceptor.recv cr env' (Acceptor.recv cr env (Acceptor.init static)
        (.hello realm authID (some [mCryptoSign]) (some [(str "pubkey", .str (hexEncode (cr.pubOfSeed seed)))]) roles)).state
        (.authenticate (cryptoSignOf cr seed ch) ex)).res = .ok (.welcome env'.id d) := by
  let extra : GoMap := some [(str "pubkey", .str (hexEncode (cr.pubOfSeed seed)))]
  have hpub := hc.pub seed hl
  have hsel := select_one hm (by decide)
  have hne : hexEncode (cr.pubOfSeed seed) ≠ [] := by
    have := hexEncode_length (cr.pubOfSeed seed)
    rw [hpub] at this
    intro h; rw [h] at this; cases this
  have hq : env.authn (newCryptoSignRequest realm authID extra (hexEncode (cr.pubOfSeed seed))) = .ok r := hr _ ⟨rfl, rfl, rfl, rfl⟩ rfl
  have hg : GoMap.get (some [(str "pubkey", Val.str (hexEncode (cr.pubOfSeed seed)))]) (str "pubkey") =
      some (.str (hexEncode (cr.pubOfSeed seed))) := rfl
  have hstep : Acceptor.recv cr env (Acceptor.init static) (.hello realm authID (some [mCryptoSign]) extra roles) =
      ⟨{ Acceptor.init static with
          authMethod := mCryptoSign, hello := some ⟨realm, authID, extra⟩,
          request := some (newCryptoSignRequest realm authID extra (hexEncode (cr.pubOfSeed seed))),
          challenge := cryptoSignChallenge ch, response := some r, st := .challengeSent },
        .ok (newChallenge mCryptoSign (some [(str "challenge", .str (cryptoSignChallenge ch))])),
        some (newCryptoSignRequest realm authID extra (hexEncode (cr.pubOfSeed seed)), .ok r)⟩ := by
    simp only [Acceptor.recv, Acceptor.recvHello, Acceptor.init, Option.getD_some, hsel, extra, hg, Val.asStr?, if_neg hne]
    simp only [extra] at hq
    simp only [hq, hch]
    rfl
  rw [hstep]
  refine ⟨rfl, ?_⟩
  obtain ⟨sig, h1, h2⟩ := C26_cryptosign_completeness cr hc seed hl (hexEncode ch) ch (hexDecode_encode _) hlc
  have hsig : cryptoSignOf cr seed ch = sig := by
    simp only [signCryptoSign, hexDecode_encode, Option.some.injEq] at h1
    rw [← h1, cryptoSignOf, hexEncode_append]
  rw [hsig]
  simp only [Acceptor.recv, Acceptor.recvAuthenticate, newCryptoSignRequest, Option.bind_some, hexDecode_encode, h2, Option.getD_some]
  exact ⟨_, rfl⟩

/-- **C135** A client with a ticket that has sent its HELLO answers any router's CHALLENGE, whatever it says, with an AUTHENTICATE whose
signature is the ticket; an anonymous client refuses to answer one. -/
theorem C135_client_ticket (cr : Crypto) (authID ticket method : Str) (ex extra : GoMap) (s : Joiner.State) (hs : s.st = .helloSent) :
    (Joiner.recv ((newTicket authID ticket ex).toAuth cr) s (.challenge method extra)).2 = .ok (some (.authenticate ticket ex)) ∧
    (Joiner.recv ((newTicket authID ticket ex).toAuth cr) s (.challenge method extra)).1.st = .authenticateSent ∧
    Joiner.recv ((newAnonymous authID ex).toAuth cr) s (.challenge method extra) = (s, .err) := by
  have h : ¬ s.st ≠ .helloSent := fun h => h hs
  refine ⟨?_, ?_, ?_⟩ <;> simp only [Joiner.recv, if_neg h] <;> rfl

/-- **C135** A router that uses the acceptor sends any client that offers a ticket a CHALLENGE without extra, then asks its authenticator once,
about that client and the signature as the ticket, and welcomes the client exactly if the authenticator accepts it. -/
theorem C135_router_ticket (cr : Crypto) (env env' : Acceptor.Env) (static : Bool) (realm authID ticket : Str) (extra roles ex : GoMap)
    (hm : mTicket ∈ env.methods) :
    (Acceptor.recv cr env (Acceptor.init static) (.hello realm authID (some [mTicket]) extra roles)).res = .ok (.challenge mTicket (some [])) ∧
    (Acceptor.recv cr env (Acceptor.init static) (.hello realm authID (some [mTicket]) extra roles)).asked = none ∧
    ∃ req, Acceptor.Asks req realm authID extra mTicket ∧ req.ticket = some ticket ∧
      (Acceptor.recv cr env' (Acceptor.recv cr env (Acceptor.init static) (.hello realm authID (some [mTicket]) extra roles)).state
        (.authenticate ticket ex)).asked = some (req, env'.authn req) ∧
      ((∃ d, (Acceptor.recv cr env' (Acceptor.recv cr env (Acceptor.init static) (.hello realm authID (some [mTicket]) extra roles)).state
        (.authenticate ticket ex)).res = .ok (.welcome env'.id d)) ↔ ∃ r, env'.authn req = .ok r) := by
  have hsel := select_one hm (by decide)
  have hstep : Acceptor.recv cr env (Acceptor.init static) (.hello realm authID (some [mTicket]) extra roles) =
      ⟨{ Acceptor.init static with authMethod := mTicket, hello := some ⟨realm, authID, extra⟩, st := .challengeSent },
        .ok (newChallenge mTicket (some [])), none⟩ := by
    simp only [Acceptor.recv, Acceptor.recvHello, Acceptor.init, Option.getD_some, hsel]
    rfl
  rw [hstep]
  refine ⟨rfl, rfl, newTicketRequest realm authID extra ticket, ⟨rfl, rfl, rfl, rfl⟩, rfl, ?_⟩
  simp only [Acceptor.recv, Acceptor.recvAuthenticate]
  cases h : env'.authn (newTicketRequest realm authID extra ticket) with
  | ok r => exact ⟨rfl, fun _ => ⟨r, rfl⟩, fun _ => ⟨_, rfl⟩⟩
  | err t => exact ⟨rfl, (by rintro ⟨d, h⟩; cases h), (by rintro ⟨r, h⟩; cases h)⟩
  | nilResp => exact ⟨rfl, (by rintro ⟨d, h⟩; cases h), (by rintro ⟨r, h⟩; cases h)⟩

/-- A router whose authenticator knows one ticket: it is accepted, another one is not. -/
example : ∃ cr env d t, mTicket ∈ env.methods ∧
    (Acceptor.recv cr env (Acceptor.recv cr env (Acceptor.init false) (.hello (str "r") (str "joe") (some [mTicket]) none none)).state
      (.authenticate (str "t1") none)).res = .ok (.welcome 5 d) ∧
    (Acceptor.recv cr env (Acceptor.recv cr env (Acceptor.init false) (.hello (str "r") (str "joe") (some [mTicket]) none none)).state
      (.authenticate (str "t2") none)).res = .ok (.abort (some []) errAuthFailed t none) :=
  ⟨Acceptor.Demo.cr, { Acceptor.Demo.env [] with
      id := 5, methods := [mTicket],
      authn := fun q => if q.ticket = some (str "t1") then .ok ⟨str "joe", str "user", none⟩ else .err (str "no") }, _, _, by
    refine ⟨by decide, rfl, rfl⟩⟩

end Wamp.Interop
