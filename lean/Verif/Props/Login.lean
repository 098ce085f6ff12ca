import Verif.Spec.Login
import Verif.Lemmas.Text
import Verif.Props.Handshake
import Verif.Props.Challenge
import Verif.Props.Cbor
import Verif.Props.MsgPack
import Verif.Props.Json
/-!
# C42 over the bytes of the three formats

`C42_honest_login` with the codecs of C95, C96 and C97 instead of an assumed one.
-/
namespace Wamp.Handshake
open Wamp Wamp.Spec Wamp.Cbor Wamp.Json

/-- What the login needs of the content a format carries, `F levels v` for a value inside so many levels. -/
structure Carrier (F : Nat → Val → Prop) : Prop where
  text : ∀ k s, validUtf8 s = true → s.length < 2 ^ 32 → F k (.str s)
  named : ∀ k s, validUtf8 s = true → s.length < 2 ^ 32 → F k (.named s)
  u64 : ∀ k n, n < 2 ^ 64 → F k (.u64 n)
  int : ∀ k v, -2 ^ 63 ≤ v → v < 2 ^ 63 → F k (.int .int v)
  bool : ∀ k b, F k (.bool b)
  strs : ∀ k s, validUtf8 s = true → s.length < 2 ^ 32 → F (k + 1) (.strs [s])
  arr : ∀ k l, l.length < 100 → (∀ v ∈ l, F k v) → F (k + 1) (.arr l)
  map : ∀ k d, d.length < 100 → sortedKeys d = true → (∀ p ∈ d, validUtf8 p.1 = true ∧ p.1.length < 2 ^ 32 ∧ F k p.2) → F (k + 1) (.map d)

theorem challenge_valid (nonce now authid authrole provider : Str) (session : Nat) :
    validUtf8 (challengeText nonce now authid authrole provider session) = true ∧
    (challengeText nonce now authid authrole provider session).length ≤
      200 + 6 * (nonce.length + now.length + authid.length + authrole.length + provider.length) + (decimal session).length := by
  have c : ∀ ps : List Str, (∀ p ∈ ps, validUtf8 p = true) → validUtf8 (commas ps) = true := by
    intro ps h
    induction ps with
    | nil => rfl
    | cons p ps ih =>
      cases ps with
      | nil => exact h p (by simp)
      | cons q ps =>
        rw [commas]
        · exact valid_append _ _ (h p (by simp)) (by rw [valid_cons (by decide)]; exact ih fun x hx => h x (List.mem_cons_of_mem _ hx))
        · simp
  have q : ∀ k v : Str, validUtf8 v = true → validUtf8 (quote k ++ 0x3a :: v) = true := fun k v h =>
    valid_append _ _ (quote_valid k).1 (by rw [valid_cons (by decide)]; exact h)
  constructor
  · rw [challengeText, valid_cons (by decide)]
    refine valid_append _ _ (c _ ?_) (by decide +kernel)
    intro p hp
    simp only [List.mem_cons, List.not_mem_nil, or_false] at hp
    rcases hp with rfl | rfl | rfl | rfl | rfl | rfl | rfl
    · exact q _ _ (quote_valid _).1
    · exact q _ _ (quote_valid _).1
    · exact q _ _ (quote_valid _).1
    · exact q _ _ (quote_valid _).1
    · exact q _ _ (quote_valid _).1
    · exact q _ _ (decimal_valid _)
    · exact q _ _ (quote_valid _).1
  · have h1 := (quote_valid nonce).2
    have h2 := (quote_valid now).2
    have h3 := (quote_valid authid).2
    have h4 := (quote_valid authrole).2
    have h5 := (quote_valid provider).2
    have h6 : (quote mCRA).length = 9 := by decide +kernel
    have k1 : (quote (str "authid")).length = 8 := by decide +kernel
    have k2 : (quote (str "authmethod")).length = 12 := by decide +kernel
    have k3 : (quote (str "authprovider")).length = 14 := by decide +kernel
    have k4 : (quote (str "authrole")).length = 10 := by decide +kernel
    have k5 : (quote (str "nonce")).length = 7 := by decide +kernel
    have k6 : (quote (str "session")).length = 9 := by decide +kernel
    have k7 : (quote (str "timestamp")).length = 11 := by decide +kernel
    simp only [challengeText, List.map_cons, List.map_nil, commas, List.length_cons, List.length_append, List.length_nil, h6, k1, k2, k3, k4, k5,
      k6, k7]
    omega

theorem zone_length (t : Clock) (h : Clock.sane t) : (iso8601 t).length ≤ 30 := by
  have hp : ∀ n : Fin 100, (pad2 n.val).length = 2 := by decide +kernel
  have hp' : ∀ n, n < 100 → (pad2 n).length = 2 := fun n hn => hp ⟨n, hn⟩
  have hz : (zoneSuffix t.offset).length ≤ 5 := by
    obtain ⟨-, -, -, -, -, -, h7, h8⟩ := h
    unfold zoneSuffix
    split
    · decide +kernel
    · split
      · simp only [List.length_append, hp' _ (show (-t.offset).toNat / 3600 < 100 by omega), hp' _ (show (-t.offset).toNat % 3600 / 60 < 100 by omega)]
        decide +kernel
      · simp only [List.length_append, hp' _ (show t.offset.toNat / 3600 < 100 by omega), hp' _ (show t.offset.toNat % 3600 / 60 < 100 by omega)]
        decide +kernel
  have hl : (localTime t).length = 19 := by
    have : (str "-").length = 1 ∧ (str "T").length = 1 ∧ (str ":").length = 1 := by decide +kernel
    simp only [localTime, digits2, List.length_append, List.length_cons, List.length_nil, this.1, this.2.1, this.2.2]
  simp only [iso8601, List.length_append, hl]
  omega

/-- The challenge of an ordinary login is text again. -/
theorem challenge_ordinary {cr : Crypto} {realm : Str} {env1 : Acceptor.Env} {r : AuthResp} {ca : ClientAuth} {d : Draw}
    (h : Ordinary cr realm env1 r ca d) {ch : Str} (hc : env1.craChallenge = some ch) : validUtf8 ch = true ∧ ch.length < 2 ^ 32 := by
  have e := h.challenge
  rw [hc] at e
  cases hb : d.nonce with
  | none => rw [challengeFor, (C98_content d r.authID r.authRole (str "dynamic")).1 hb] at e; cases e
  | some b =>
    rw [challengeFor, generate_text d b hb] at e
    cases e
    have := challenge_valid (b64Encode b) (iso8601 d.now) r.authID r.authRole (str "dynamic") d.session.toNat
    refine ⟨this.1, ?_⟩
    have h1 := this.2
    have h2 := b64Encode_length b
    have h3 := zone_length d.now h.clock
    have h4 := h.nonce b hb
    have h5 := h.approvedID.2
    have h6 := h.approvedRole.2
    have h7 := decimal_length 18 d.session.toNat (by have := h.session; omega)
    have h8 : (str "dynamic").length = 7 := by decide +kernel
    omega

/-- Every message of an ordinary login can be carried. -/
theorem crosses_carried {F : Nat → Val → Prop} (hF : Carrier F) {cr : Crypto} (hc : SigScheme cr) {norm : Val → Val} {realm : Str}
    {env1 env2 : Acceptor.Env} {r : AuthResp} {ca : ClientAuth} {d : Draw} (ho : Ordinary cr realm env1 r ca d)
    (ha : Approves cr norm realm env1 env2 r ca) (k : Nat)
    (hx : F (k + 3) (.map (ca.authExtra.getD []))) (hx' : F (k + 4) (.map (ca.authExtra.getD []))) (id : Nat) (hid : id ≤ 2 ^ 53) (m : Msg)
    (hm : Crosses cr realm env1 id r ca m) : F (k + 5) (.arr m.marshal) := by
  have tx : ∀ {s}, Text s → ∀ k, F k (.str s) := fun {s} h k => hF.text k s h.1 (Nat.lt_trans h.2 (by decide))
  have nm : ∀ {s}, Text s → ∀ k, F k (.named s) := fun {s} h k => hF.named k s h.1 (Nat.lt_trans h.2 (by decide))
  have meth : Text ca.method := by
    have : Text mAnonymous ∧ Text mTicket ∧ Text mCRA ∧ Text mCryptoSign := by unfold Text; decide +kernel
    cases ca
    · exact this.1
    · exact this.2.1
    · exact this.2.2.1
    · exact this.2.2.2
  have hmap : ∀ k d, d.length < 100 → sortedKeys d = true → (∀ p ∈ d, ascii p.1 = true ∧ p.1.length < 2 ^ 32 ∧ F k p.2) → F (k + 1) (.map d) :=
    fun k d h1 h2 h3 => hF.map k d h1 h2 fun p hp => ⟨ascii_valid _ (h3 p hp).1, (h3 p hp).2⟩
  have flags : ∀ k (l : List Str), (l.map fun s => (s, Val.bool true)).length < 100 → sortedKeys (l.map fun s => (s, Val.bool true)) = true →
      (∀ s ∈ l, ascii s = true ∧ s.length < 2 ^ 32) → F (k + 1) (.map (l.map fun s => (s, .bool true))) := by
    intro k l h1 h2 h3
    refine hmap k _ h1 h2 ?_
    intro p hp
    obtain ⟨s, hs, rfl⟩ := List.mem_map.mp hp
    exact ⟨(h3 s hs).1, (h3 s hs).2, hF.bool _ _⟩
  have feats : ∀ k (l : List Str), (l.map fun s => (s, Val.bool true)).length < 100 → sortedKeys (l.map fun s => (s, Val.bool true)) = true →
      (∀ s ∈ l, ascii s = true ∧ s.length < 2 ^ 32) → F (k + 2) (.map [(str "features", .map (l.map fun s => (s, .bool true)))]) := by
    intro k l h1 h2 h3
    refine hmap (k + 1) _ (by simp) rfl ?_
    simp only [List.mem_singleton, forall_eq]
    exact ⟨by decide +kernel, by decide +kernel, flags k l h1 h2 h3⟩
  have router : F (k + 3) (.map routerRoles) := by
    refine hmap (k + 2) _ (by decide +kernel) (by decide +kernel) ?_
    simp only [routerRoles, List.mem_cons, List.not_mem_nil, or_false, forall_eq_or_imp, forall_eq]
    exact ⟨⟨by decide +kernel, by decide +kernel, feats k [str "publisher_exclusion"] (by decide +kernel) (by decide +kernel) (by decide +kernel)⟩,
      by decide +kernel, by decide +kernel, feats k [str "call_canceling", str "progressive_call_invocations"] (by decide +kernel) (by decide +kernel) (by decide +kernel)⟩
  have client : F (k + 3) (.map clientRoles) := by
    refine hmap (k + 2) _ (by decide +kernel) (by decide +kernel) ?_
    simp only [clientRoles, List.mem_cons, List.not_mem_nil, or_false, forall_eq_or_imp, forall_eq]
    exact ⟨⟨by decide +kernel, by decide +kernel, feats k [str "call_canceling", str "progressive_call_invocations", str "progressive_call_results"] (by decide +kernel) (by decide +kernel) (by decide +kernel)⟩,
      ⟨by decide +kernel, by decide +kernel, feats k [str "progressive_call_invocations"] (by decide +kernel) (by decide +kernel) (by decide +kernel)⟩,
      ⟨by decide +kernel, by decide +kernel, feats k [str "publisher_exclusion"] (by decide +kernel) (by decide +kernel) (by decide +kernel)⟩,
      by decide +kernel, by decide +kernel, feats k [] (by decide +kernel) (by decide +kernel) (by decide +kernel)⟩
  refine hF.arr (k + 4) _ (by rcases hm with rfl | ⟨x, -, rfl⟩ | ⟨s, -, rfl⟩ | rfl <;> simp [Msg.marshal, newHello, newChallenge, newAuthenticate, newWelcome]) ?_
  rcases hm with rfl | ⟨x, hx1, rfl⟩ | ⟨sig, hs, rfl⟩ | rfl
  · simp only [newHello, Msg.marshal, orEmpty, Val.ofMap, Val.ofStrs, List.mem_cons, List.not_mem_nil, or_false, forall_eq_or_imp, forall_eq]
    refine ⟨hF.u64 _ _ (by omega), tx ho.realm _, hmap (k + 3) _ (by simp) rfl ?_⟩
    simp only [List.mem_cons, List.not_mem_nil, or_false, forall_eq_or_imp, forall_eq]
    exact ⟨⟨by decide +kernel, by decide +kernel, hx⟩, ⟨by decide +kernel, by decide +kernel, tx ho.authID _⟩,
      ⟨by decide +kernel, by decide +kernel, hF.strs _ _ meth.1 (Nat.lt_trans meth.2 (by decide))⟩, by decide +kernel, by decide +kernel, client⟩
  · simp only [newChallenge, Msg.marshal, Val.ofMap, List.mem_cons, List.not_mem_nil, or_false, forall_eq_or_imp, forall_eq]
    refine ⟨hF.u64 _ _ (by omega), tx meth _, ?_⟩
    cases ca with
    | anonymous => exact hx1.elim
    | ticket => cases hx1; exact hmap _ _ (by simp) rfl (by simp)
    | cra i e s =>
      obtain ⟨ch, info, h1, h2, rfl⟩ := hx1
      obtain ⟨-, -, salt, it, kl, h3, h4, h5, h6, h7⟩ := ha
      rw [h2] at h3
      cases h3
      have hch := challenge_ordinary ho h1
      unfold Acceptor.craExtra
      split
      · refine hmap _ _ (by simp) rfl ?_
        simp only [List.mem_singleton, forall_eq]
        exact ⟨by decide +kernel, by decide +kernel, hF.text _ _ hch.1 hch.2⟩
      · refine hmap _ _ (by simp) rfl ?_
        simp only [List.mem_cons, List.not_mem_nil, or_false, forall_eq_or_imp, forall_eq]
        exact ⟨⟨by decide +kernel, by decide +kernel, hF.text _ _ hch.1 hch.2⟩, ⟨by decide +kernel, by decide +kernel, hF.int _ _ (by omega) (by omega)⟩,
          ⟨by decide +kernel, by decide +kernel, hF.int _ _ (by omega) (by omega)⟩, by decide +kernel, by decide +kernel, tx (ho.salt _ h2) _⟩
    | cryptosign i e s =>
      obtain ⟨ch, h1, rfl⟩ := hx1
      obtain ⟨-, -, -, rnd, h3, h4⟩ := ha
      rw [h1] at h4
      cases h4
      refine hmap _ _ (by simp) rfl ?_
      simp only [List.mem_singleton, forall_eq]
      exact ⟨by decide +kernel, by decide +kernel, hF.text _ _ (ascii_valid _ (hexEncode_ascii _)) (by rw [hexEncode_length, h3]; decide)⟩
  · simp only [newAuthenticate, Msg.marshal, orEmpty, Val.ofMap, List.mem_cons, List.not_mem_nil, or_false, forall_eq_or_imp, forall_eq]
    refine ⟨hF.u64 _ _ (by omega), ?_, hx'⟩
    cases ca with
    | anonymous => exact hs.elim
    | ticket i e t => cases hs; exact tx (ho.ticket _ _ _ rfl) _
    | cra i e s =>
      obtain ⟨ch, info, key, -, -, -, rfl⟩ := hs
      refine hF.text _ _ (plain_valid _ (b64Encode_plain _)) ?_
      have := b64Encode_length (cr.hmac key ch)
      rw [ho.mac] at this
      exact Nat.lt_of_le_of_lt this (by decide)
    | cryptosign i e s =>
      obtain ⟨ch, h1, h2⟩ := hs
      obtain ⟨hlen, -, -, rnd, h3, h4⟩ := ha
      rw [h1] at h4
      cases h4
      simp only [signCryptoSign, hexDecode_encode, Option.some.injEq] at h2
      subst h2
      refine hF.text _ _ (valid_append _ _ (ascii_valid _ (hexEncode_ascii _)) (ascii_valid _ (hexEncode_ascii _))) ?_
      rw [List.length_append, hexEncode_length, hexEncode_length, h3, hc.sig _ _ hlen]
      decide
  · simp only [newWelcome, Msg.marshal, Val.ofMap, List.mem_cons, List.not_mem_nil, or_false, forall_eq_or_imp, forall_eq]
    refine ⟨hF.u64 _ _ (by omega), hF.u64 _ _ (by omega), hmap (k + 3) _ (by simp [Acceptor.welcomeDetails]) rfl ?_⟩
    simp only [Acceptor.welcomeDetails, List.mem_cons, List.not_mem_nil, or_false, forall_eq_or_imp, forall_eq]
    exact ⟨⟨by decide +kernel, by decide +kernel, tx ho.approvedID _⟩, ⟨by decide +kernel, by decide +kernel, nm meth _⟩,
      ⟨by decide +kernel, by decide +kernel, tx ho.approvedRole _⟩, ⟨by decide +kernel, by decide +kernel, tx ho.realm _⟩,
      by decide +kernel, by decide +kernel, router⟩

theorem cbor_carrier : Carrier fun k v => Cbor.fits k v = true where
  text k s h1 h2 := by simp only [Cbor.fits, Cbor.text, h1, Bool.true_and, decide_eq_true_eq]; omega
  named k s h1 h2 := by simp only [Cbor.fits, Cbor.text, h1, Bool.true_and, decide_eq_true_eq]; omega
  u64 k n h := by simpa only [Cbor.fits, decide_eq_true_eq] using h
  int k v h1 h2 := by simp only [Cbor.fits, decide_eq_true_eq]; omega
  bool k b := by simp only [Cbor.fits]
  strs k s h1 h2 := by
    simp only [Cbor.fits, List.length_cons, List.length_nil, List.all_cons, List.all_nil, Cbor.text, h1, Bool.and_true, Bool.true_and,
      Bool.and_eq_true, decide_eq_true_eq]
    omega
  arr k l h1 h2 := by
    have : ∀ l : List Val, (∀ v ∈ l, Cbor.fits k v = true) → Cbor.fitsL k l = true := by
      intro l h
      induction l with
      | nil => simp only [Cbor.fitsL]
      | cons a l ih =>
        simp only [Cbor.fitsL, Bool.and_eq_true]
        exact ⟨h a (by simp), ih fun v hv => h v (List.mem_cons_of_mem _ hv)⟩
    simp only [Cbor.fits, Nat.add_sub_cancel, this l h2, Bool.and_true, decide_eq_true_eq]
    omega
  map k d h1 h2 h3 := by
    have : ∀ l : Dict, (∀ p ∈ l, validUtf8 p.1 = true ∧ p.1.length < 2 ^ 32 ∧ Cbor.fits k p.2 = true) → Cbor.fitsM k l = true := by
      intro l h
      induction l with
      | nil => simp only [Cbor.fitsM]
      | cons a l ih =>
        have := h a (by simp)
        simp only [Cbor.fitsM, Cbor.text, this.1, this.2.2, Bool.and_eq_true, decide_eq_true_eq, true_and, and_true]
        exact ⟨by omega, ih fun v hv => h v (List.mem_cons_of_mem _ hv)⟩
    simp only [Cbor.fits, Nat.add_sub_cancel, this d h3, h2, Bool.and_true, decide_eq_true_eq]
    omega

theorem msgpack_carrier : Carrier fun _ v => MsgPack.fits v = true where
  text k s h1 h2 := by simpa only [MsgPack.fits, MsgPack.short, decide_eq_true_eq] using h2
  named k s h1 h2 := by simpa only [MsgPack.fits, MsgPack.short, decide_eq_true_eq] using h2
  u64 k n h := by simpa only [MsgPack.fits, MsgPack.inURange, decide_eq_true_eq] using h
  int k v h1 h2 := by simp only [MsgPack.fits, MsgPack.inRange, decide_eq_true_eq]; exact ⟨h1, h2⟩
  bool k b := by simp only [MsgPack.fits]
  strs k s h1 h2 := by
    simp only [MsgPack.fits, MsgPack.short, List.length_cons, List.length_nil, List.all_cons, List.all_nil, Bool.and_true,
      Bool.and_eq_true, decide_eq_true_eq]
    omega
  arr k l h1 h2 := by
    have : ∀ l : List Val, (∀ v ∈ l, MsgPack.fits v = true) → MsgPack.fitsL l = true := by
      intro l h
      induction l with
      | nil => simp only [MsgPack.fitsL]
      | cons a l ih =>
        simp only [MsgPack.fitsL, Bool.and_eq_true]
        exact ⟨h a (by simp), ih fun v hv => h v (List.mem_cons_of_mem _ hv)⟩
    simp only [MsgPack.fits, MsgPack.short, this l h2, Bool.and_true, decide_eq_true_eq]
    omega
  map k d h1 h2 h3 := by
    have : ∀ l : Dict, (∀ p ∈ l, validUtf8 p.1 = true ∧ p.1.length < 2 ^ 32 ∧ MsgPack.fits p.2 = true) → MsgPack.fitsM l = true := by
      intro l h
      induction l with
      | nil => simp only [MsgPack.fitsM]
      | cons a l ih =>
        have := h a (by simp)
        simp only [MsgPack.fitsM, MsgPack.short, this.2.2, Bool.and_eq_true, decide_eq_true_eq, and_true]
        exact ⟨this.2.1, ih fun v hv => h v (List.mem_cons_of_mem _ hv)⟩
    simp only [MsgPack.fits, MsgPack.short, this d h3, h2, Bool.and_true, decide_eq_true_eq]
    omega

theorem json_carrier : Carrier fun k v => Json.fits k v = true where
  text k s h1 h2 := by simpa only [Json.fits] using h1
  named k s h1 h2 := by simpa only [Json.fits] using h1
  u64 k n h := by simp only [Json.fits, decide_eq_true_eq]; exact h
  int k v h1 h2 := by simp only [Json.fits, decide_eq_true_eq]; omega
  bool k b := by simp only [Json.fits]
  strs k s h1 h2 := by
    simp only [Json.fits, List.all_cons, List.all_nil, h1, Bool.and_true, decide_eq_true_eq]
    omega
  arr k l h1 h2 := by
    have : ∀ l : List Val, (∀ v ∈ l, Json.fits k v = true) → Json.fitsL k l = true := by
      intro l h
      induction l with
      | nil => simp only [Json.fitsL]
      | cons a l ih =>
        simp only [Json.fitsL, Bool.and_eq_true]
        exact ⟨h a (by simp), ih fun v hv => h v (List.mem_cons_of_mem _ hv)⟩
    simp only [Json.fits, Nat.add_sub_cancel, this l h2, Bool.and_true, decide_eq_true_eq]
    omega
  map k d h1 h2 h3 := by
    have : ∀ l : Dict, (∀ p ∈ l, validUtf8 p.1 = true ∧ p.1.length < 2 ^ 32 ∧ Json.fits k p.2 = true) → Json.fitsM k l = true := by
      intro l h
      induction l with
      | nil => simp only [Json.fitsM]
      | cons a l ih =>
        have := h a (by simp)
        simp only [Json.fitsM, this.1, this.2.2, Bool.true_and]
        exact ih fun v hv => h v (List.mem_cons_of_mem _ hv)
    simp only [Json.fits, Nat.add_sub_cancel, this d h3, h2, Bool.and_true, decide_eq_true_eq]
    omega

mutual
theorem cbor_mono (k : Nat) (v : Val) (h : Cbor.fits k v = true) : Cbor.fits (k + 1) v = true := by
  match v with
  | .arr l =>
    simp only [Cbor.fits, Bool.and_eq_true, decide_eq_true_eq, Nat.add_sub_cancel] at h ⊢
    obtain ⟨j, rfl⟩ : ∃ j, k = j + 1 := ⟨k - 1, by omega⟩
    exact ⟨⟨by omega, h.1.2⟩, cbor_monoL _ l h.2⟩
  | .map d =>
    simp only [Cbor.fits, Bool.and_eq_true, decide_eq_true_eq, Nat.add_sub_cancel] at h ⊢
    obtain ⟨j, rfl⟩ : ∃ j, k = j + 1 := ⟨k - 1, by omega⟩
    exact ⟨⟨⟨by omega, h.1.1.2⟩, h.1.2⟩, cbor_monoM _ d h.2⟩
  | .strs l =>
    simp only [Cbor.fits, Bool.and_eq_true, decide_eq_true_eq] at h ⊢
    exact ⟨⟨by omega, h.1.2⟩, h.2⟩
  | .nil | .bool _ | .int _ _ | .uint _ _ | .f32 _ | .f64 _ | .str _ | .named _ | .bytes _ | .arrNil | .strsNil | .mapNil | .other _ =>
    first | (simp only [Cbor.fits]; done) | simpa only [Cbor.fits] using h
  termination_by sizeOf v
theorem cbor_monoL (k : Nat) (l : List Val) (h : Cbor.fitsL k l = true) : Cbor.fitsL (k + 1) l = true := by
  match l with
  | [] => simp only [Cbor.fitsL]
  | v :: rest =>
    simp only [Cbor.fitsL, Bool.and_eq_true] at h ⊢
    exact ⟨cbor_mono k v h.1, cbor_monoL k rest h.2⟩
  termination_by sizeOf l
theorem cbor_monoM (k : Nat) (l : List (Str × Val)) (h : Cbor.fitsM k l = true) : Cbor.fitsM (k + 1) l = true := by
  match l with
  | [] => simp only [Cbor.fitsM]
  | (s, v) :: rest =>
    simp only [Cbor.fitsM, Bool.and_eq_true] at h ⊢
    exact ⟨⟨h.1.1, cbor_mono k v h.1.2⟩, cbor_monoM k rest h.2⟩
  termination_by sizeOf l
end

mutual
theorem json_mono (k : Nat) (v : Val) (h : Json.fits k v = true) : Json.fits (k + 1) v = true := by
  match v with
  | .arr l =>
    simp only [Json.fits, Bool.and_eq_true, decide_eq_true_eq, Nat.add_sub_cancel] at h ⊢
    obtain ⟨j, rfl⟩ : ∃ j, k = j + 1 := ⟨k - 1, by omega⟩
    exact ⟨by omega, json_monoL _ l h.2⟩
  | .map d =>
    simp only [Json.fits, Bool.and_eq_true, decide_eq_true_eq, Nat.add_sub_cancel] at h ⊢
    obtain ⟨j, rfl⟩ : ∃ j, k = j + 1 := ⟨k - 1, by omega⟩
    exact ⟨⟨by omega, h.1.2⟩, json_monoM _ d h.2⟩
  | .strs l =>
    simp only [Json.fits, Bool.and_eq_true, decide_eq_true_eq] at h ⊢
    exact ⟨by omega, h.2⟩
  | .nil | .bool _ | .int _ _ | .uint _ _ | .f32 _ | .f64 _ | .str _ | .named _ | .bytes _ | .arrNil | .strsNil | .mapNil | .other _ =>
    first | (simp only [Json.fits]; done) | simpa only [Json.fits] using h
  termination_by sizeOf v
theorem json_monoL (k : Nat) (l : List Val) (h : Json.fitsL k l = true) : Json.fitsL (k + 1) l = true := by
  match l with
  | [] => simp only [Json.fitsL]
  | v :: rest =>
    simp only [Json.fitsL, Bool.and_eq_true] at h ⊢
    exact ⟨json_mono k v h.1, json_monoL k rest h.2⟩
  termination_by sizeOf l
theorem json_monoM (k : Nat) (l : List (Str × Val)) (h : Json.fitsM k l = true) : Json.fitsM (k + 1) l = true := by
  match l with
  | [] => simp only [Json.fitsM]
  | (s, v) :: rest =>
    simp only [Json.fitsM, Bool.and_eq_true] at h ⊢
    exact ⟨⟨h.1.1, json_mono k v h.1.2⟩, json_monoM k rest h.2⟩
  termination_by sizeOf l
end

/-- **C42** over CBOR, byte by byte: an ordinary login of an approved client, whose authextra fits below two levels, succeeds, and both
ends agree. -/
theorem C42_cbor (cr : Crypto) (hc : SigScheme cr) (order : List (Str × Str) → List (Str × Str)) (horder : ∀ l, (order l).Perm l)
    (realm : Str) (static : Bool) (env1 env2 : Acceptor.Env) (r : AuthResp) (ca : ClientAuth) (d : Draw)
    (hid1 : env1.id ≤ 2 ^ 53) (hid2 : env2.id ≤ 2 ^ 53) (hm : ca.method ∈ env1.methods) (ha : Approves cr cborWire realm env1 env2 r ca)
    (ho : Ordinary cr realm env1 r ca d)
    (hx : Cbor.fits 30 (.map (ca.authExtra.getD [])) = true) :
    ∃ id, (id = env1.id ∨ id = env2.id) ∧
      Agree (login cr (Cbor.codec order) (ca.toAuth cr) [env1, env2] realm static) id realm r.authID r.authRole ca.method :=
  C42_honest_login cr hc _ _ cborWire (by simp) (C95_faithful order horder) realm static env1 env2 r ca hid1 hid2 hm ha
    fun m id h hcr => crosses_carried cbor_carrier hc ho ha 27 hx (cbor_mono _ _ hx) id (by rcases h with rfl | rfl <;> assumption) m hcr

/-- **C42** over MsgPack, byte by byte. -/
theorem C42_msgpack (cr : Crypto) (hc : SigScheme cr) (order : List (Str × Str) → List (Str × Str)) (horder : ∀ l, (order l).Perm l)
    (realm : Str) (static : Bool) (env1 env2 : Acceptor.Env) (r : AuthResp) (ca : ClientAuth) (d : Draw)
    (hid1 : env1.id ≤ 2 ^ 53) (hid2 : env2.id ≤ 2 ^ 53) (hm : ca.method ∈ env1.methods) (ha : Approves cr msgpackWire realm env1 env2 r ca)
    (ho : Ordinary cr realm env1 r ca d) (hx : MsgPack.fits (.map (ca.authExtra.getD [])) = true) :
    ∃ id, (id = env1.id ∨ id = env2.id) ∧
      Agree (login cr (MsgPack.codec order) (ca.toAuth cr) [env1, env2] realm static) id realm r.authID r.authRole ca.method :=
  C42_honest_login cr hc _ _ msgpackWire (by simp) (MsgPack.C96_faithful order horder) realm static env1 env2 r ca hid1 hid2 hm ha
    fun m id h hcr => crosses_carried msgpack_carrier hc ho ha 27 hx hx id (by rcases h with rfl | rfl <;> assumption) m hcr

/-- **C42** over JSON, byte by byte. -/
theorem C42_json (cr : Crypto) (hc : SigScheme cr)
    (realm : Str) (static : Bool) (env1 env2 : Acceptor.Env) (r : AuthResp) (ca : ClientAuth) (d : Draw)
    (hid1 : env1.id ≤ 2 ^ 53) (hid2 : env2.id ≤ 2 ^ 53) (hm : ca.method ∈ env1.methods) (ha : Approves cr jsonWire realm env1 env2 r ca)
    (ho : Ordinary cr realm env1 r ca d)
    (hx : Json.fits 9998 (.map (ca.authExtra.getD [])) = true) :
    ∃ id, (id = env1.id ∨ id = env2.id) ∧
      Agree (login cr Json.codec (ca.toAuth cr) [env1, env2] realm static) id realm r.authID r.authRole ca.method :=
  C42_honest_login cr hc _ _ jsonWire (by simp) (Json.C97_faithful) realm static env1 env2 r ca hid1 hid2 hm ha
    fun m id h hcr => crosses_carried (json_carrier) hc ho ha 9995 hx (json_mono _ _ hx) id (by rcases h with rfl | rfl <;> assumption) m hcr

/-! ### A case that meets the hypotheses -/

namespace Demo2
def cr : Crypto := { Demo.cr with hmac := fun _ m => (m ++ List.replicate 32 0).take 32 }
def extra : GoMap := some [(str "device", .str [0x74, 0xc3, 0xab]), (str "tags", .arr [.str (str "a"), .int .int (-3)])]
def client : ClientAuth := newCRA (str "joe") (str "secret") extra
def draw : Draw := ⟨some (str "0123456789abcdef"), 4711, ⟨2024, 5, 9, 23, 4, 0, 3600⟩⟩
def env : Acceptor.Env := ⟨[str "ticket", str "wampcra"], fun r => if r.authID = str "joe" then .ok Demo.resp else .err [], 77,
  challengeFor draw Demo.resp, none⟩
end Demo2

/-- A salted WAMP-CRA login with an authextra meets the hypotheses of all three theorems. -/
example : SigScheme Demo2.cr ∧ Demo2.client.method ∈ Demo2.env.methods ∧
    (∀ norm, Approves Demo2.cr norm (str "realm1") Demo2.env Demo2.env Demo.resp Demo2.client) ∧
    Ordinary Demo2.cr (str "realm1") Demo2.env Demo.resp Demo2.client Demo2.draw ∧
    Cbor.fits 30 (.map (Demo2.client.authExtra.getD [])) = true ∧ MsgPack.fits (.map (Demo2.client.authExtra.getD [])) = true ∧
    Json.fits 9998 (.map (Demo2.client.authExtra.getD [])) = true := by
  refine ⟨⟨fun s h => h, fun s _ h => by simp [Demo2.cr, Demo.cr, h], fun s _ _ => by simp [Demo2.cr, Demo.cr]⟩, by decide, ?_, ?_,
    by decide +kernel, by decide +kernel, by decide +kernel⟩
  · intro norm
    refine ⟨rfl, ?_, str "salt", 100, 32, rfl, by decide, by decide, by decide, by decide⟩
    rw [show Demo2.env.craChallenge = challengeFor Demo2.draw Demo.resp from rfl, challengeFor, generate_text _ _ rfl]
    simp
  · exact {
      realm := ⟨by decide +kernel, by decide +kernel⟩
      authID := ⟨by decide +kernel, by decide +kernel⟩
      ticket := by intro i e t h; cases h
      approvedID := ⟨by decide +kernel, by decide +kernel⟩
      approvedRole := ⟨by decide +kernel, by decide +kernel⟩
      salt := by intro info h; cases h; exact ⟨by decide +kernel, by decide +kernel⟩
      challenge := rfl
      nonce := by intro b h; cases h; decide +kernel
      session := by decide
      clock := by unfold Clock.sane; decide
      mac := by intro k m; simp [Demo2.cr] }

end Wamp.Handshake
