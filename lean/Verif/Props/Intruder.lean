import Verif.Spec.Intruder
import Verif.Props.Acceptor
import Verif.Props.Challenge
import Verif.Props.Joiner
/-!
# C132, C133, C134: an intruder on the network
-/
namespace Wamp.Intruder
open Wamp Wamp.Spec

/-! ### Each acceptor and each joiner on its own -/

/-- The calls of one acceptor. -/
def callsAt (i : Nat) (h : List Event) : List Acceptor.Call :=
  h.filterMap fun
    | .acceptor k c => if k = i then some c else none
    | _ => none

theorem mem_callsAt {i : Nat} {h : List Event} {c : Acceptor.Call} : c ∈ callsAt i h ↔ Event.acceptor i c ∈ h := by
  unfold callsAt
  rw [List.mem_filterMap]
  constructor
  · rintro ⟨e, he, h2⟩
    cases e with
    | acceptor k c' =>
      simp only [Option.ite_none_right_eq_some, Option.some.injEq] at h2
      obtain ⟨rfl, rfl⟩ := h2
      exact he
    | hello j r => cases h2
    | client j m r => cases h2
  · intro he
    exact ⟨_, he, by simp⟩

theorem acceptor_hist {cr : Crypto} {auth : Nat → ClientAuth} {h : List Event} {w : World} (hr : Run cr auth h w) (i : Nat) :
    ∃ static, Acceptor.Hist cr static (callsAt i h) (w.acc i) := by
  induction hr with
  | new astatic jstatic realm => exact ⟨astatic i, .new⟩
  | @acceptor h w k env m hr ih =>
    obtain ⟨st, ih⟩ := ih
    refine ⟨st, ?_⟩
    by_cases hk : k = i
    · subst hk
      have := Acceptor.Hist.call env m ih
      simpa [callsAt] using this
    · have hk' : ¬ i = k := fun e => hk e.symm
      simpa [callsAt, hk, hk'] using ih
  | hello j c _ ih => simpa [callsAt] using ih
  | client j m _ ih => simpa [callsAt] using ih

/-- What happened up to some point is a run, too. -/
theorem run_suffix {cr : Crypto} {auth : Nat → ClientAuth} {h : List Event} {w : World} (hr : Run cr auth h w) :
    ∀ later earlier, h = later ++ earlier → ∃ w', Run cr auth earlier w' := by
  induction hr with
  | new astatic jstatic realm =>
    intro l e he
    obtain ⟨rfl, rfl⟩ := List.append_eq_nil_iff.1 he.symm
    exact ⟨_, .new astatic jstatic realm⟩
  | acceptor k env m hr ih =>
    intro l e he
    cases l with
    | nil => cases he; exact ⟨_, .acceptor k env m hr⟩
    | cons x l => cases he; exact ih l e rfl
  | hello j c hr ih =>
    intro l e he
    cases l with
    | nil => cases he; exact ⟨_, .hello j c hr⟩
    | cons x l => cases he; exact ih l e rfl
  | client j m hr ih =>
    intro l e he
    cases l with
    | nil => cases he; exact ⟨_, .client j m hr⟩
    | cons x l => cases he; exact ih l e rfl

/-- An AUTHENTICATE of a client was made by its authenticator, from the extra of the CHALLENGE it received. -/
theorem signed_by {cr : Crypto} {auth : Nat → ClientAuth} {h : List Event} {w : World} (hr : Run cr auth h w) {j : Nat} {extra : GoMap}
    {sig : Str} (hs : Signed h j extra sig) : ∃ ex, (auth j).authenticate cr extra = .ok (sig, ex) := by
  obtain ⟨method, ex, hs⟩ := hs
  induction hr with
  | new => cases hs
  | acceptor k env m _ ih =>
    rcases List.mem_cons.1 hs with e | e
    · cases e
    · exact ih e
  | hello k c _ ih =>
    rcases List.mem_cons.1 hs with e | e
    · cases e
    · exact ih e
  | @client h w k m _ ih =>
    rcases List.mem_cons.1 hs with e | e
    · simp only [Event.client.injEq] at e
      obtain ⟨rfl, rfl, e⟩ := e
      simp only [Joiner.recv] at e
      split at e
      · cases e
      · split at e
        · next sg ex' heq =>
          simp only [Res.ok.injEq, Option.some.injEq, newAuthenticate, Msg.authenticate.injEq] at e
          obtain ⟨rfl, -⟩ := e
          exact ⟨ex', heq⟩
        · cases e
        · cases e
    · exact ih e

theorem signed_mono {h later : List Event} {j : Nat} {extra : GoMap} {sig : Str} (hs : Signed h j extra sig) :
    Signed (later ++ h) j extra sig := by
  obtain ⟨m, ex, hs⟩ := hs
  exact ⟨m, ex, by simp [hs]⟩

/-- What a WAMP-CRA authenticator answers is a MAC of the challenge text. -/
theorem cra_signs {cr : Crypto} {authID secret : Str} {e extra ex : GoMap} {sig : Str}
    (h : (ClientAuth.cra authID e secret).authenticate cr extra = .ok (sig, ex)) :
    ∃ key, b64Decode sig = some (cr.hmac key (extra.text (str "challenge"))) := by
  simp only [ClientAuth.authenticate, craAuthenticate] at h
  generalize (if extra.text (str "salt") ≠ [] then _ else _ : Res Str) = raw at h
  cases raw with
  | ok k =>
    simp only [Res.bind, Res.ok.injEq, Prod.mk.injEq] at h
    obtain ⟨rfl, -⟩ := h
    exact ⟨k, by simp [signCRA, (C22_hex_base64 _).2.1, signCRABytes]⟩
  | err => cases h
  | panic => cases h

theorem opens_iff {user method : Str} {e : Event} (h : e.opens user method = true) :
    ∃ i c id d, e = .acceptor i c ∧ c.out = .ok (.welcome id d) ∧ says d (str "authid") user = true ∧ says d (str "authmethod") method = true := by
  cases e with
  | acceptor i c =>
    simp only [Event.opens] at h
    split at h
    · next id d heq =>
      simp only [Bool.and_eq_true] at h
      exact ⟨i, c, id, d, rfl, heq, h.1, h.2⟩
    · cases h
  | hello j r => cases h
  | client j m r => cases h

/-- **C132** Agreement: whoever is between clients and router, and whatever they do, a WELCOME for a WAMP-CRA user is sent only if one of the
user's own clients was given the very text of this acceptor's CHALLENGE and signed it.  (MACs of different texts differ; the intruder makes no
MACs with the user's keys; nobody else's client does.) -/
theorem C132_agreement {cr : Crypto} (inj : ∀ k k' t t', cr.hmac k t = cr.hmac k' t' → t = t') {auth : Nat → ClientAuth} {owner : Nat → Bool}
    {user : Str} {keys : Str → Prop} {h : List Event} {w : World} (hr : Run cr auth h w) (hk : KeysOf cr user keys h)
    (ho : OnlyOwners cr auth owner keys) (hcra : Owners auth owner) (hf : NoForgery cr keys h)
    {later earlier : List Event} {i : Nat} {c : Acceptor.Call} (he : h = later ++ .acceptor i c :: earlier)
    (hw : (Event.acceptor i c).opens user mCRA = true) :
    ∃ c' req r extra ch, Event.acceptor i c' ∈ earlier ∧ c'.approved req r ∧ r.authID = user ∧ c'.out = .ok (.challenge mCRA extra) ∧
      extra.get (str "challenge") = some (.str ch) ∧
      ∃ j extra' sig, owner j = true ∧ Signed earlier j extra' sig ∧ extra'.text (str "challenge") = ch := by
  obtain ⟨i', c0, id, d, e, hout, hu, hm⟩ := opens_iff hw
  cases e
  obtain ⟨w', hr'⟩ := run_suffix hr later _ he
  obtain ⟨static, hh⟩ := acceptor_hist hr' i
  have hcs : callsAt i (.acceptor i c :: earlier) = c :: callsAt i earlier := by simp [callsAt]
  rw [hcs] at hh
  obtain ⟨realm, method, r0, aex0, rfl, -, -⟩ := Acceptor.welcome_justified hh hout
  obtain ⟨-, f2, -, f4⟩ := Acceptor.welcomeDetails_fields realm r0.authID r0.authRole method
  have hm' : method = mCRA := by
    simp only [says, f4, beq_iff_eq] at hm; exact hm
  subst hm'
  have hu' : r0.authID = user := by
    simp only [says, f2, beq_iff_eq] at hu; exact hu
  obtain ⟨sig, aex, la, c', ea, extra, ch, req, r, info, key, h1, h2, -, h3, h4, h5, h6, h7, h8, h9, h10⟩ :=
    Acceptor.C31_cra_binding hh hout f4
  have hru : r.authID = user := by
    rw [f2] at h9
    simp only [Option.some.injEq, Val.str.injEq] at h9
    rw [← h9, hu']
  have hmem : Event.acceptor i c' ∈ earlier := mem_callsAt.1 (by rw [h2]; simp)
  have hkey : keys key := hk i c' req r info key (by rw [he]; simp [hmem]) h5 hru h6 h7
  obtain ⟨j, extra', sig', hs, hb⟩ := hf later i c earlier sig aex key ch he h1 hkey h8
  obtain ⟨w2, hr2⟩ := run_suffix hr (later ++ [.acceptor i c]) earlier (by rw [he]; simp)
  obtain ⟨ex, ha⟩ := signed_by hr2 hs
  have hj : owner j = true := by
    cases hj : owner j with
    | true => rfl
    | false => exact absurd hb (ho j hj extra' sig' ex ha key ch hkey)
  obtain ⟨aid, ae, secret, hau⟩ := hcra j hj
  rw [hau] at ha
  obtain ⟨k', hk'⟩ := cra_signs ha
  rw [hb] at hk'
  exact ⟨c', req, r, extra, ch, hmem, h5, hru, h3, h4, j, extra', sig', hj, hs, (inj _ _ _ _ (Option.some.inj hk')).symm⟩

/-! ### Counting -/

/-- The texts that these clients signed. -/
def texts (who : Nat → Bool) (h : List Event) : List Str :=
  h.filterMap fun
    | .client j (.challenge _ extra) (.ok (some (.authenticate ..))) => if who j then some (extra.text (str "challenge")) else none
    | _ => none

theorem mem_texts {who : Nat → Bool} {h : List Event} {j : Nat} {extra : GoMap} {sig : Str} (hj : who j = true) (hs : Signed h j extra sig) :
    extra.text (str "challenge") ∈ texts who h := by
  obtain ⟨m, ex, hs⟩ := hs
  exact List.mem_filterMap.2 ⟨_, hs, by simp [hj]⟩

/-- A client signs once per `SendHello`. -/
theorem texts_tries {cr : Crypto} {auth : Nat → ClientAuth} (who : Nat → Bool) {h : List Event} {w : World} (hr : Run cr auth h w) :
    ∃ p : List Nat, (∀ j, who j = true → (w.cli j).st = .helloSent → j ∈ p) ∧
      (texts who h).length + p.length ≤ h.countP (Event.tries who) := by
  induction hr with
  | new astatic jstatic realm => exact ⟨[], (by intro j _ hs; cases hs), by simp [texts]⟩
  | acceptor k env m _ ih => simpa [texts, Event.tries] using ih
  | @hello h w j c _ ih =>
    obtain ⟨p, h1, h2⟩ := ih
    cases hser : c.serialize (Joiner.helloMsg ((auth j).toAuth cr) (w.cli j)) with
    | ok b =>
      cases hw : who j with
      | true =>
        refine ⟨j :: p, fun k hk hs => ?_, ?_⟩
        · by_cases e : k = j
          · simp [e]
          · simp only [if_neg e] at hs
            exact List.mem_cons_of_mem _ (h1 k hk hs)
        · simp only [Joiner.sendHello, hser, texts, Event.tries, hw, List.countP_cons, List.length_cons, List.filterMap_cons, if_true]
          simp only [texts] at h2
          omega
      | false =>
        refine ⟨p, fun k hk hs => ?_, ?_⟩
        · by_cases e : k = j
          · subst e; rw [hw] at hk; cases hk
          · simp only [if_neg e] at hs
            exact h1 k hk hs
        · simp only [Joiner.sendHello, hser, texts, Event.tries, hw, List.countP_cons, List.filterMap_cons, Bool.false_eq_true, if_false]
          simp only [texts] at h2
          omega
    | err =>
      refine ⟨p, fun k hk hs => ?_, ?_⟩
      · by_cases e : k = j
        · subst e; simp only [if_true, Joiner.sendHello, hser] at hs; exact h1 k hk hs
        · simp only [if_neg e] at hs; exact h1 k hk hs
      · simp only [Joiner.sendHello, hser, texts, Event.tries, List.countP_cons, List.filterMap_cons, Bool.false_eq_true, if_false]
        exact h2
    | panic =>
      refine ⟨p, fun k hk hs => ?_, ?_⟩
      · by_cases e : k = j
        · subst e; simp only [if_true, Joiner.sendHello, hser] at hs; exact h1 k hk hs
        · simp only [if_neg e] at hs; exact h1 k hk hs
      · simp only [Joiner.sendHello, hser, texts, Event.tries, List.countP_cons, List.filterMap_cons, Bool.false_eq_true, if_false]
        exact h2
  | @client h w j m _ ih =>
    obtain ⟨p, h1, h2⟩ := ih
    have hc : (List.countP (Event.tries who) (Event.client j m (Joiner.recv ((auth j).toAuth cr) (w.cli j) m).2 :: h)) =
        List.countP (Event.tries who) h := by simp [Event.tries]
    rw [hc]
    by_cases hs : ∃ method extra sig ex, m = .challenge method extra ∧
        (Joiner.recv ((auth j).toAuth cr) (w.cli j) m).2 = .ok (some (.authenticate sig ex))
    · obtain ⟨method, extra, sig, ex, rfl, hres⟩ := hs
      have hst : (w.cli j).st = .helloSent ∧ (Joiner.recv ((auth j).toAuth cr) (w.cli j) (.challenge method extra)).1.st = .authenticateSent := by
        simp only [Joiner.recv] at hres ⊢
        split at hres
        · cases hres
        · next hne =>
          refine ⟨Classical.not_not.1 hne, ?_⟩
          rw [if_neg hne]
          split at hres
          · rfl
          · cases hres
          · cases hres
      cases hw : who j with
      | true =>
        refine ⟨p.erase j, fun k hk hs => ?_, ?_⟩
        · by_cases e : k = j
          · subst e
            simp only [if_true, hst.2] at hs
            cases hs
          · simp only [if_neg e] at hs
            exact (List.mem_erase_of_ne e).2 (h1 k hk hs)
        · have hp := h1 j hw hst.1
          have hl := List.length_erase_of_mem hp
          have hpos := List.length_pos_of_mem hp
          simp only [texts, hres, hw, List.filterMap_cons, if_true, List.length_cons]
          simp only [texts] at h2
          omega
      | false =>
        refine ⟨p, fun k hk hs => ?_, ?_⟩
        · by_cases e : k = j
          · subst e; rw [hw] at hk; cases hk
          · simp only [if_neg e] at hs
            exact h1 k hk hs
        · simp only [texts, hres, hw, List.filterMap_cons, Bool.false_eq_true, if_false]
          exact h2
    · refine ⟨p, fun k hk hs' => ?_, ?_⟩
      · by_cases e : k = j
        · subst e
          simp only [if_true] at hs'
          refine h1 k hk ?_
          revert hs'
          unfold Joiner.recv Joiner.recvWelcome
          intro hs'
          repeat' split at hs'
          all_goals first
            | exact hs'
            | (cases hs'; done)
        · simp only [if_neg e] at hs'
          exact h1 k hk hs'
      · have : texts who (Event.client j m (Joiner.recv ((auth j).toAuth cr) (w.cli j) m).2 :: h) = texts who h := by
          simp only [texts, List.filterMap_cons]
          split
          · rfl
          · next b hb =>
            exfalso
            split at hb
            · next heq =>
              simp only [Event.client.injEq] at heq
              obtain ⟨-, rfl, hres⟩ := heq
              exact hs ⟨_, _, _, _, rfl, hres⟩
            · cases hb
        rw [this]; exact h2

theorem nodup_length_le {α : Type} [DecidableEq α] : ∀ {l l' : List α}, l.Nodup → (∀ x ∈ l, x ∈ l') → l.length ≤ l'.length := by
  intro l
  induction l with
  | nil => intro l' _ _; simp
  | cons a l ih =>
    intro l' hn hs
    rw [List.nodup_cons] at hn
    have ha := hs a (by simp)
    have := @ih (l'.erase a) hn.2 fun x hx =>
      (List.mem_erase_of_ne (show x ≠ a by rintro rfl; exact hn.1 hx)).2 (hs x (List.mem_cons_of_mem _ hx))
    have hl := List.length_erase_of_mem ha
    have hp := List.length_pos_of_mem ha
    simp only [List.length_cons]
    omega

/-- The text of a challenge tells which acceptor made it. -/
theorem same_text {cr : Crypto} {auth : Nat → ClientAuth} {h : List Event} {w : World} (hr : Run cr auth h w)
    {draw : Nat → Draw} (hn : FreshNonces draw h) {i i' : Nat} {c c' : Acceptor.Call} {req req' : AuthReq} {r r' : AuthResp}
    {extra extra' : GoMap} {ch : Str} (h1 : Event.acceptor i c ∈ h) (h2 : c.approved req r) (h3 : c.out = .ok (.challenge mCRA extra))
    (h4 : extra.get (str "challenge") = some (.str ch))
    (h1' : Event.acceptor i' c' ∈ h) (h2' : c'.approved req' r') (h3' : c'.out = .ok (.challenge mCRA extra'))
    (h4' : extra'.get (str "challenge") = some (.str ch)) : i = i' := by
  have key : ∀ {i c req r extra}, Event.acceptor i c ∈ h → c.approved req r → c.out = .ok (.challenge mCRA extra) →
      extra.get (str "challenge") = some (.str ch) → challengeFor (draw i) r = some ch := by
    intro i c req r extra h1 h2 h3 h4
    obtain ⟨static, hh⟩ := acceptor_hist hr i
    obtain ⟨s', hs'⟩ := hist_call hh c (mem_callsAt.2 h1)
    rw [← hn.made i c extra h1 h3 req r h2]
    exact challenge_drawn cr c.env s' c.msg extra ch (hs' ▸ h3) h4
  obtain ⟨⟨b, hb, hb'⟩, -⟩ := C98_distinct _ _ _ _ _ _ _ _ _ (key h1 h2 h3 h4) (key h1' h2' h3' h4')
  exact hn.differ i i' b hb hb'

/-- **C132** One session per login: there are never more WAMP-CRA sessions of a user than times the user's own clients called `SendHello`. -/
theorem C132_sessions {cr : Crypto} (inj : ∀ k k' t t', cr.hmac k t = cr.hmac k' t' → t = t') {auth : Nat → ClientAuth} {owner : Nat → Bool}
    {user : Str} {keys : Str → Prop} {h : List Event} {w : World} (hr : Run cr auth h w) (hk : KeysOf cr user keys h)
    (ho : OnlyOwners cr auth owner keys) (hcra : Owners auth owner) (hf : NoForgery cr keys h)
    {draw : Nat → Draw} (hn : FreshNonces draw h) :
    h.countP (Event.opens user mCRA) ≤ h.countP (Event.tries owner) := by
  have inv : ∀ earlier later, h = later ++ earlier → ∃ l : List (Nat × Str), (l.map Prod.snd).Nodup ∧
      l.length = earlier.countP (Event.opens user mCRA) ∧
      ∀ i ch, (i, ch) ∈ l → (∃ c, Event.acceptor i c ∈ earlier ∧ c.answered .welcome) ∧
        (∃ c req r extra, Event.acceptor i c ∈ earlier ∧ c.approved req r ∧ c.out = .ok (.challenge mCRA extra) ∧
          extra.get (str "challenge") = some (.str ch)) ∧ ch ∈ texts owner earlier := by
    intro earlier
    induction earlier with
    | nil => intro later _; exact ⟨[], by simp, by simp, by simp⟩
    | cons e earlier ih =>
      intro later he
      obtain ⟨l, l1, l2, l3⟩ := ih (later ++ [e]) (by rw [he]; simp)
      have mono : ∀ i ch, (i, ch) ∈ l → (∃ c, Event.acceptor i c ∈ e :: earlier ∧ c.answered .welcome) ∧
          (∃ c req r extra, Event.acceptor i c ∈ e :: earlier ∧ c.approved req r ∧ c.out = .ok (.challenge mCRA extra) ∧
            extra.get (str "challenge") = some (.str ch)) ∧ ch ∈ texts owner (e :: earlier) := by
        intro i ch hm
        obtain ⟨⟨c, a1, a2⟩, ⟨c', req, r, extra, b1, b2⟩, hx⟩ := l3 i ch hm
        refine ⟨⟨c, List.mem_cons_of_mem _ a1, a2⟩, ⟨c', req, r, extra, List.mem_cons_of_mem _ b1, b2⟩, ?_⟩
        obtain ⟨x, hx, hx'⟩ := List.mem_filterMap.1 hx
        exact List.mem_filterMap.2 ⟨x, List.mem_cons_of_mem _ hx, hx'⟩
      cases hop : e.opens user mCRA with
      | false => exact ⟨l, l1, by simp [hop, l2], mono⟩
      | true =>
        obtain ⟨i, c, id, d, rfl, hout, -, -⟩ := opens_iff hop
        obtain ⟨c', req, r, extra, ch, a1, a2, -, a3, a4, j, extra', sig, b1, b2, b3⟩ := C132_agreement inj hr hk ho hcra hf he hop
        have up : ∀ x, x ∈ earlier → x ∈ h := fun x hx => by rw [he]; simp [hx]
        refine ⟨(i, ch) :: l, ?_, by simp [hop, l2], ?_⟩
        · rw [List.map_cons, List.nodup_cons]
          refine ⟨fun hin => ?_, l1⟩
          obtain ⟨⟨i', ch'⟩, hin', rfl⟩ := List.mem_map.1 hin
          obtain ⟨⟨cw, g1, g2⟩, ⟨c2, req2, r2, extra2, g3, g4, g5, g6⟩, -⟩ := l3 i' ch' hin'
          have := same_text hr hn (up _ a1) a2 a3 a4 (up _ g3) g4 g5 g6
          subst this
          obtain ⟨w', hr'⟩ := run_suffix hr later _ he
          obtain ⟨static, hh⟩ := acceptor_hist hr' i
          have hcs : callsAt i (.acceptor i c :: earlier) = c :: callsAt i earlier := by simp [callsAt]
          obtain ⟨x, y, hxy⟩ := List.append_of_mem (mem_callsAt.2 g1)
          rw [hcs, hxy] at hh
          have := (Acceptor.C33_nothing_after_welcome (h1 := c :: x) hh g2).1 c (by simp)
          rw [hout] at this
          cases this
        · intro i2 ch2 hm
          rcases List.mem_cons.1 hm with e | hm
          · cases e
            refine ⟨⟨c, by simp, ⟨_, hout, rfl⟩⟩, ⟨c', req, r, extra, List.mem_cons_of_mem _ a1, a2, a3, a4⟩, ?_⟩
            rw [← b3]
            refine mem_texts (sig := sig) b1 ?_
            obtain ⟨m, ex, hs⟩ := b2
            exact ⟨m, ex, List.mem_cons_of_mem _ hs⟩
          · exact mono i2 ch2 hm
  obtain ⟨l, l1, l2, l3⟩ := inv h [] rfl
  obtain ⟨p, -, hp⟩ := texts_tries owner hr
  have := nodup_length_le l1 (l' := texts owner h) fun x hx => by
    obtain ⟨⟨i, ch⟩, hm, rfl⟩ := List.mem_map.1 hx
    exact (l3 i ch hm).2.2
  rw [List.length_map] at this
  omega

/-! ### The hypotheses can be met: a login passed on unchanged -/

namespace Demo

/-- A toy MAC: the text followed by the first byte of the key. -/
def cr : Crypto := ⟨fun k t => t ++ [k.headD 0], fun p _ _ _ => p, id, fun s _ => s, fun _ _ _ => false⟩

theorem inj (k k' t t' : Str) (h : cr.hmac k t = cr.hmac k' t') : t = t' :=
  (List.append_inj' h rfl).1

/-- Client 0 has the user's secret, the others are anonymous. -/
def auth (j : Nat) : ClientAuth := if j = 0 then .cra (str "joe") none (str "s3") else .anonymous [] none

/-- Who the server knows. -/
def joe : AuthResp := ⟨str "joe", str "user", some ⟨str "s3", [], 0, 0⟩⟩

/-- Random values of acceptor `i`. -/
def draw (i : Nat) : Draw := ⟨some (List.replicate i 0), 7, ⟨2026, 1, 2, 3, 4, 5, 0⟩⟩

/-- Client 0 says HELLO, acceptor 0 answers CHALLENGE, the client signs it, the acceptor answers WELCOME. -/
theorem login : ∃ h w, Run cr auth h w ∧ KeysOf cr (str "joe") (· = str "s3") h ∧
    OnlyOwners cr auth (· == 0) (· = str "s3") ∧ Owners auth (· == 0) ∧ NoForgery cr (· = str "s3") h ∧ FreshNonces draw h ∧
    h.countP (Event.opens (str "joe") mCRA) = 1 ∧ h.countP (Event.tries (· == 0)) = 1 := by
  obtain ⟨ch, -, hch, -⟩ := (C98_content (draw 0) joe.authID joe.authRole (str "dynamic")).2 _ rfl
  let env : Acceptor.Env := ⟨[mCRA], fun _ => .ok joe, 5, some ch, none⟩
  let hello := Acceptor.Demo.hello mCRA none
  let req := newRequest (str "realm1") (str "joe") none mCRA
  let sig := signCRA cr ch (str "s3")
  have s1 : Acceptor.recv cr env (Acceptor.init false) hello =
      ⟨{ static := false, st := .challengeSent, authMethod := mCRA, hello := some ⟨str "realm1", str "joe", none⟩, request := none,
         response := some joe, challenge := ch, details := none },
       .ok (newChallenge mCRA (some [(str "challenge", .str ch)])), some (req, .ok joe)⟩ := by
    have hsel : selectAuthMethod env.methods [mCRA] = some mCRA := rfl
    simp only [hello, Acceptor.recv, Acceptor.Demo.hello, newHello, Acceptor.recvHello, Acceptor.init, Option.getD_some, hsel]
    rfl
  have s2 : (Acceptor.recv cr env (Acceptor.recv cr env (Acceptor.init false) hello).state (.authenticate sig none)).res =
       .ok (newWelcome 5 (some (Acceptor.welcomeDetails (str "realm1") (str "joe") (str "user") mCRA))) ∧
      (Acceptor.recv cr env (Acceptor.recv cr env (Acceptor.init false) hello).state (.authenticate sig none)).asked = none := by
    rw [s1]
    have hv : verifyCRA cr sig ch (str "s3") = true := C23_cra_completeness cr ch (str "s3")
    have hk : craKey cr ⟨str "s3", [], 0, 0⟩ = .ok (str "s3") := rfl
    simp only [Acceptor.recv, Acceptor.recvAuthenticate, joe, Option.bind_some, hk, hv]
    exact ⟨rfl, rfl⟩
  let codec : Codec := ⟨fun _ => some [], fun _ => none⟩
  let chal : Msg := .challenge mCRA (some [(str "challenge", .str ch)])
  have r1 : Run cr auth _ _ := .hello 0 codec (.new (fun _ => false) (fun _ => false) (fun _ => str "realm1"))
  have r2 := Run.acceptor 0 env hello r1
  have r3 := Run.client 0 chal r2
  have r4 := Run.acceptor 0 env (.authenticate sig none) r3
  have e1 : (Joiner.recv (ClientAuth.toAuth cr (auth 0))
      (Joiner.sendHello codec (ClientAuth.toAuth cr (auth 0)) (Joiner.init (str "realm1") false)).1 chal).2 =
      .ok (some (newAuthenticate sig none)) := by
    have ht : GoMap.text (some [(str "challenge", .str ch)]) (str "challenge") = ch := rfl
    have ht' : GoMap.text (some [(str "challenge", .str ch)]) (str "salt") = [] := rfl
    simp only [Joiner.recv, chal, Joiner.sendHello, Codec.serialize, codec, Res.ofOption, ClientAuth.toAuth, auth, if_true,
      ClientAuth.authenticate, craAuthenticate, ht, ht']
    rfl
  simp only [if_true] at r4
  rw [e1] at r4
  refine ⟨_, _, r4, ?_, ?_, ?_, ?_, ⟨?_, ?_⟩, ?_, ?_⟩
  · intro i c rq rp info key hm hap hu hi hk
    simp only [List.mem_cons, Event.acceptor.injEq, reduceCtorEq, List.not_mem_nil, or_false, false_or] at hm
    rcases hm with ⟨rfl, rfl⟩ | ⟨rfl, rfl⟩
    · simp only [Acceptor.Call.approved, Acceptor.callOf, s2.2] at hap
      cases hap
    · simp only [Acceptor.Call.approved, Acceptor.callOf, s1] at hap
      cases hap
      cases hi
      cases hk
      rfl
  · intro j hj extra sg e ha
    simp only [beq_eq_false_iff_ne, ne_eq] at hj
    simp only [auth, if_neg hj, ClientAuth.authenticate] at ha
    cases ha
  · intro j hj
    simp only [beq_iff_eq] at hj
    exact ⟨_, _, _, by rw [hj]; rfl⟩
  · intro later i c earlier sg e key text hs hm hk hv
    rcases later with _ | ⟨x1, _ | ⟨x2, _ | ⟨x3, _ | ⟨x4, later⟩⟩⟩⟩ <;> simp at hs
    · obtain ⟨⟨rfl, rfl⟩, rfl⟩ := hs
      cases hm
      exact ⟨0, some [(str "challenge", .str ch)], sig, ⟨mCRA, none, by simp [chal, newAuthenticate]⟩, hv⟩
    · obtain ⟨-, -, ⟨rfl, rfl⟩, -⟩ := hs
      cases hm
  · intro i c extra hm ho
    simp only [List.mem_cons, Event.acceptor.injEq, reduceCtorEq, List.not_mem_nil, or_false, false_or] at hm
    rcases hm with ⟨rfl, rfl⟩ | ⟨rfl, rfl⟩
    · simp only [Acceptor.callOf, s2.1] at ho
      cases ho
    · intro rq rp hap
      simp only [Acceptor.Call.approved, Acceptor.callOf, s1] at hap
      cases hap
      exact hch.symm
  · intro i i' n h1 h2
    simp only [draw, Option.some.injEq] at h1 h2
    have := congrArg List.length (h1.trans h2.symm)
    simpa using this
  · have e2 : (Event.acceptor 0 (Acceptor.callOf cr env (Acceptor.recv cr env (Acceptor.init false) hello).state (.authenticate sig none))).opens
        (str "joe") mCRA = true := by
      simp only [Event.opens, Acceptor.callOf, s2.1]
      decide +kernel
    have e3 : (Event.acceptor 0 (Acceptor.callOf cr env (Acceptor.init false) hello)).opens (str "joe") mCRA = false := by
      simp only [Event.opens, Acceptor.callOf, s1]
      rfl
    simp only [List.countP_cons, List.countP_nil, e2, e3]
    simp [Event.opens]
  · simp [Event.tries, Joiner.sendHello, Codec.serialize, codec, Res.ofOption]

end Demo

/-! ### CryptoSign -/

/-- **C133** (partial) A WELCOME for a CryptoSign user is sent only if one of the user's own clients has signed something before: the AUTHENTICATE
carries a message that this client signed.  Missing: that it signed this acceptor's challenge, see `C133_replayed`. -/
theorem C133_signed_before_partial {cr : Crypto} {auth : Nat → ClientAuth} {owner : Nat → Bool}
    {user : Str} {keys : Str → Prop} {h : List Event} {w : World} (hr : Run cr auth h w) (hk : PublicKeysOf user keys h)
    (ho : OnlyOwnersSign cr auth owner keys) (hf : NoForgedSignature cr keys h)
    {later earlier : List Event} {i : Nat} {c : Acceptor.Call} (he : h = later ++ .acceptor i c :: earlier)
    (hw : (Event.acceptor i c).opens user mCryptoSign = true) :
    ∃ key msg sig ex, keys key ∧ c.msg = .authenticate sig ex ∧ ValidFor cr key sig msg ∧ msg.length = 32 ∧
      ∃ j extra sig', owner j = true ∧ Signed earlier j extra sig' ∧ ValidFor cr key sig' msg := by
  obtain ⟨i', c0, id, d, e, hout, hu, hm⟩ := opens_iff hw
  cases e
  obtain ⟨w', hr'⟩ := run_suffix hr later _ he
  obtain ⟨static, hh⟩ := acceptor_hist hr' i
  have hcs : callsAt i (.acceptor i c :: earlier) = c :: callsAt i earlier := by simp [callsAt]
  rw [hcs] at hh
  obtain ⟨realm, method, r0, aex0, rfl, -, -⟩ := Acceptor.welcome_justified hh hout
  obtain ⟨-, f2, -, f4⟩ := Acceptor.welcomeDetails_fields realm r0.authID r0.authRole method
  have hm' : method = mCryptoSign := by
    simp only [says, f4, beq_iff_eq] at hm; exact hm
  subst hm'
  have hu' : r0.authID = user := by
    simp only [says, f2, beq_iff_eq] at hu; exact hu
  obtain ⟨sig, aex, la, c', ea, extra, req, r, pk, key, sg, msg, h1, h2, -, h3, h5, h6, h7, h8, h9, h10, h11, h12, -⟩ :=
    Acceptor.C32_cryptosign_partial hh hout f4
  have hru : r.authID = user := by
    rw [f2] at h12
    simp only [Option.some.injEq, Val.str.injEq] at h12
    rw [← h12, hu']
  have hmem : Event.acceptor i c' ∈ earlier := mem_callsAt.1 (by rw [h2]; simp)
  have hkey := hk i c' req r pk key (by rw [he]; simp [hmem]) h5 hru h6 h7
  have hv : ValidFor cr ((key ++ List.replicate 32 0).take 32) sig msg := ⟨sg, h8, h9, h11⟩
  obtain ⟨j, extra', sig', hs, hb⟩ := hf later i c earlier sig aex _ msg he h1 hkey hv
  obtain ⟨w2, hr2⟩ := run_suffix hr (later ++ [.acceptor i c]) earlier (by rw [he]; simp)
  obtain ⟨ex, ha⟩ := signed_by hr2 hs
  refine ⟨_, msg, sig, aex, hkey, h1, hv, h10, j, extra', sig', ?_, hs, hb⟩
  cases hj : owner j with
  | true => rfl
  | false => exact absurd hb (ho j hj extra' sig' ex ha _ msg hkey)

theorem noForged_cons {cr : Crypto} {keys : Str → Prop} {h : List Event} (hf : NoForgedSignature cr keys h) (e : Event)
    (he : ∀ i c sig ex, e = .acceptor i c → c.msg = .authenticate sig ex → ∃ j extra, Signed h j extra sig) :
    NoForgedSignature cr keys (e :: h) := by
  intro later i c earlier sig ex key msg hs hm hk hv
  cases later with
  | nil =>
    simp only [List.nil_append, List.cons.injEq] at hs
    obtain ⟨rfl, rfl⟩ := hs
    obtain ⟨j, extra, h2⟩ := he i c sig ex rfl hm
    exact ⟨j, extra, sig, h2, hv⟩
  | cons x later =>
    simp only [List.cons_append, List.cons.injEq] at hs
    exact hf later i c earlier sig ex key msg hs.2 hm hk hv

/-- The clients of `C133_replayed`: client 0 has a private key, the others are anonymous. -/
def oneSigner (cr : Crypto) (seed : Str) (j : Nat) : ClientAuth :=
  if j = 0 then .cryptosign (str "joe") (some [(str "pubkey", .str (hexEncode (cr.pubOfSeed seed)))]) seed else .anonymous [] none

/-- **C133** (refuted) One login is enough for any number of sessions: for every signature scheme, key and choice of challenges (one for each
acceptor) there is a run in which the user's client called `SendHello` once and signed once, nobody forged a signature, and `n` acceptors
opened a session for the user. -/
theorem C133_replayed (cr : Crypto) (hc : SigScheme cr) (seed : Str) (hl : seed.length = 32) (challenge : Nat → Str) (n : Nat) :
    ∃ h w, Run cr (oneSigner cr seed) h w ∧ PublicKeysOf (str "joe") (· = cr.pubOfSeed seed) h ∧
      OnlyOwnersSign cr (oneSigner cr seed) (· == 0) (· = cr.pubOfSeed seed) ∧ NoForgedSignature cr (· = cr.pubOfSeed seed) h ∧
      h.countP (Event.tries (· == 0)) = 1 ∧ (texts (· == 0) h).length = 1 ∧ h.countP (Event.opens (str "joe") mCryptoSign) = n ∧
      ∀ i, i < n → ∃ c, Event.acceptor i c ∈ h ∧
        c.out = .ok (newChallenge mCryptoSign (some [(str "challenge", .str (cryptoSignChallenge (challenge i)))])) := by
  have hpub := hc.pub seed hl
  obtain ⟨sig, hsig, hver⟩ := C26_cryptosign_completeness cr hc seed hl (hexEncode seed) seed (hexDecode_encode _) hl
  let ex : GoMap := some [(str "pubkey", .str (hexEncode (cr.pubOfSeed seed)))]
  let r : AuthResp := ⟨str "joe", str "user", none⟩
  let req := newCryptoSignRequest (str "realm1") (str "joe") ex (hexEncode (cr.pubOfSeed seed))
  let env : Nat → Acceptor.Env := fun i => ⟨[mCryptoSign], fun _ => .ok r, 5, none, some (cryptoSignChallenge (challenge i))⟩
  let hello := Acceptor.Demo.hello mCryptoSign ex
  have hne : hexEncode (cr.pubOfSeed seed) ≠ [] := by
    have := hexEncode_length (cr.pubOfSeed seed)
    rw [hpub] at this
    intro h; rw [h] at this; cases this
  have s1 : ∀ i, Acceptor.recv cr (env i) (Acceptor.init false) hello =
      ⟨{ static := false, st := .challengeSent, authMethod := mCryptoSign, hello := some ⟨str "realm1", str "joe", ex⟩, request := some req,
         response := some r, challenge := cryptoSignChallenge (challenge i), details := none },
       .ok (newChallenge mCryptoSign (some [(str "challenge", .str (cryptoSignChallenge (challenge i)))])), some (req, .ok r)⟩ := by
    intro i
    have hsel : selectAuthMethod (env i).methods [mCryptoSign] = some mCryptoSign := rfl
    have hg : ex.get (str "pubkey") = some (.str (hexEncode (cr.pubOfSeed seed))) := rfl
    simp only [hello, Acceptor.recv, Acceptor.Demo.hello, newHello, Acceptor.recvHello, Acceptor.init, Option.getD_some, hsel, hg, Val.asStr?, if_neg hne]
    rfl
  have s2 : ∀ i, Acceptor.recv cr (env i) (Acceptor.recv cr (env i) (Acceptor.init false) hello).state (.authenticate sig none) =
      ⟨{ static := false, st := .welcomeSent, authMethod := mCryptoSign, hello := some ⟨str "realm1", str "joe", ex⟩, request := some req,
         response := some r, challenge := cryptoSignChallenge (challenge i),
         details := some (newSessionDetails 5 (str "realm1") (str "joe") (str "user") mCryptoSign false (some routerRoles) none) },
       .ok (newWelcome 5 (some (Acceptor.welcomeDetails (str "realm1") (str "joe") (str "user") mCryptoSign))), none⟩ := by
    intro i
    rw [s1]
    simp only [Acceptor.recv, Acceptor.recvAuthenticate, req, newCryptoSignRequest, Option.bind_some, hexDecode_encode, hver,
      Option.getD_some]
    rfl
  let codec : Codec := ⟨fun _ => some [], fun _ => none⟩
  let chal : Msg := .challenge mCryptoSign (some [(str "challenge", .str (hexEncode seed))])
  have hauth : (oneSigner cr seed 0).authenticate cr (some [(str "challenge", .str (hexEncode seed))]) = .ok (sig, ex) := by
    have ht : GoMap.text (some [(str "challenge", .str (hexEncode seed))]) (str "challenge") = hexEncode seed := rfl
    simp only [oneSigner, if_true, ClientAuth.authenticate, ht, hsig]
    rfl
  have hown : OnlyOwnersSign cr (oneSigner cr seed) (· == 0) (· = cr.pubOfSeed seed) := by
    intro j hj extra sg e ha
    simp only [beq_eq_false_iff_ne, ne_eq] at hj
    simp only [oneSigner, if_neg hj, ClientAuth.authenticate] at ha
    cases ha
  have start : ∃ h w, Run cr (oneSigner cr seed) h w ∧ (∀ i c, Event.acceptor i c ∉ h) ∧ (∀ i, w.acc i = Acceptor.init false) ∧
      Signed h 0 (some [(str "challenge", .str (hexEncode seed))]) sig ∧
      h.countP (Event.tries (· == 0)) = 1 ∧ (texts (· == 0) h).length = 1 := by
    have r1 : Run cr (oneSigner cr seed) _ _ := .hello 0 codec (.new (fun _ => false) (fun _ => false) (fun _ => str "realm1"))
    have r2 := Run.client 0 chal r1
    have e1 : (Joiner.recv (ClientAuth.toAuth cr (oneSigner cr seed 0))
        (Joiner.sendHello codec (ClientAuth.toAuth cr (oneSigner cr seed 0)) (Joiner.init (str "realm1") false)).1 chal).2 =
        .ok (some (newAuthenticate sig ex)) := by
      simp only [Joiner.recv, chal, Joiner.sendHello, Codec.serialize, codec, Res.ofOption, ClientAuth.toAuth, hauth]
      rfl
    simp only [if_true] at r2
    rw [e1] at r2
    refine ⟨_, _, r2, ?_, fun i => rfl, ⟨mCryptoSign, ex, by simp [chal, newAuthenticate]⟩, ?_, ?_⟩
    · intro i c hm
      simp at hm
    · simp [Event.tries, Joiner.sendHello, Codec.serialize, codec, Res.ofOption]
    · simp [texts, chal, newAuthenticate]
  obtain ⟨h0, w0, r0, a0, b0, c0, d0, e0⟩ := start
  have main : ∃ h w, Run cr (oneSigner cr seed) h w ∧ PublicKeysOf (str "joe") (· = cr.pubOfSeed seed) h ∧
      NoForgedSignature cr (· = cr.pubOfSeed seed) h ∧
      h.countP (Event.tries (· == 0)) = 1 ∧ (texts (· == 0) h).length = 1 ∧ h.countP (Event.opens (str "joe") mCryptoSign) = n ∧
      (∀ i, i < n → ∃ c, Event.acceptor i c ∈ h ∧
        c.out = .ok (newChallenge mCryptoSign (some [(str "challenge", .str (cryptoSignChallenge (challenge i)))]))) ∧
      (∀ i, n ≤ i → w.acc i = Acceptor.init false) ∧ Signed h 0 (some [(str "challenge", .str (hexEncode seed))]) sig := by
    induction n with
    | zero =>
      refine ⟨h0, w0, r0, ?_, ?_, d0, e0, ?_, by simp, fun i _ => b0 i, c0⟩
      · intro i c _ _ _ _ hm; exact absurd hm (a0 i c)
      · intro later i c earlier _ _ _ _ hs; exact absurd (by rw [hs]; simp) (a0 i c)
      · rw [List.countP_eq_zero]
        intro e he hop
        obtain ⟨i, c, _, _, rfl, -⟩ := opens_iff hop
        exact a0 i c he
    | succ n ih =>
      obtain ⟨h, w, r1, k1, f1, t1, x1, o1, g1, i1, z1⟩ := ih
      have hin := i1 n (Nat.le_refl _)
      have r2 := Run.acceptor n (env n) (.authenticate sig none) (Run.acceptor n (env n) hello r1)
      simp only [if_true, hin] at r2
      refine ⟨_, _, r2, ?_, ?_, ?_, ?_, ?_, ?_, ?_, ?_⟩
      · intro i c rq rp pk key hm hap hu hpk hd
        simp only [List.mem_cons, Event.acceptor.injEq] at hm
        rcases hm with ⟨rfl, rfl⟩ | ⟨rfl, rfl⟩ | hm
        · simp only [Acceptor.Call.approved, Acceptor.callOf, s2] at hap
          cases hap
        · simp only [Acceptor.Call.approved, Acceptor.callOf, s1] at hap
          cases hap
          simp only [req, newCryptoSignRequest, Option.some.injEq] at hpk
          subst hpk
          rw [hexDecode_encode] at hd
          cases hd
          rw [List.take_append_of_le_length (by omega), List.take_of_length_le (by omega)]
        · exact k1 i c rq rp pk key hm hap hu hpk hd
      · refine noForged_cons (noForged_cons f1 _ ?_) _ ?_
        · intro i c sg e he hm
          cases he
          cases hm
        · intro i c sg e he hm
          cases he
          cases hm
          exact ⟨0, _, signed_mono (later := [_]) z1⟩
      · simpa [Event.tries] using t1
      · simpa [texts] using x1
      · rw [List.countP_cons, List.countP_cons, o1]
        have e2 : (Event.acceptor n (Acceptor.callOf cr (env n) (Acceptor.recv cr (env n) (Acceptor.init false) hello).state (.authenticate sig none))).opens
            (str "joe") mCryptoSign = true := by
          simp only [Event.opens, Acceptor.callOf, s2]
          decide +kernel
        have e3 : (Event.acceptor n (Acceptor.callOf cr (env n) (Acceptor.init false) hello)).opens (str "joe") mCryptoSign = false := by
          simp only [Event.opens, Acceptor.callOf, s1]
          rfl
        rw [e2, e3]; simp
      · intro i hi
        rcases Nat.lt_succ_iff_lt_or_eq.1 hi with hi | rfl
        · obtain ⟨c, hm, ho⟩ := g1 i hi
          exact ⟨c, by simp [hm], ho⟩
        · exact ⟨Acceptor.callOf cr (env i) (Acceptor.init false) hello, by simp, by simp only [Acceptor.callOf, s1]⟩
      · intro i hi
        have : i ≠ n := by omega
        simp only [if_neg this]
        exact i1 i (by omega)
      · exact signed_mono (later := [_, _]) z1
  obtain ⟨h, w, r1, k1, f1, t1, x1, o1, g1, -⟩ := main
  exact ⟨h, w, r1, k1, hown, f1, t1, x1, o1, g1⟩

/-! ### Who the router is -/

/-- **C134** (refuted) A client joins whoever answers it: with any built-in authenticator, in any run, right after its `SendHello` a client that
is given a WELCOME joins with the session ID, authid and role the WELCOME says, without having been asked to sign anything. -/
theorem C134_any_router {cr : Crypto} {auth : Nat → ClientAuth} {h : List Event} {w : World} (hr : Run cr auth h w) (j : Nat) (c : Codec) (b : Str)
    (hs : c.serialize (Joiner.helloMsg ((auth j).toAuth cr) (w.cli j)) = .ok b) (id : Nat) (authid authrole : Str) :
    ∃ w' d, Run cr auth (.client j (.welcome id (some [(str "authid", .str authid), (str "authrole", .str authrole)])) (.ok none) ::
        .hello j (.ok b) :: h) w' ∧ (w'.cli j).details = some d ∧ (w'.cli j).st = .joined ∧ d.id = id ∧ d.authID = authid ∧
      d.authRole = authrole ∧ w'.acc = w.acc := by
  have r2 := Run.client j (.welcome id (some [(str "authid", .str authid), (str "authrole", .str authrole)])) (Run.hello j c hr)
  have g1 : GoMap.get (some [(str "authid", .str authid), (str "authrole", .str authrole)]) (str "authid") = some (.str authid) := rfl
  have g2 : GoMap.get (some [(str "authid", .str authid), (str "authrole", .str authrole)]) (str "authrole") = some (.str authrole) := rfl
  simp only [Joiner.sendHello, hs, if_true, Joiner.recv, Joiner.recvWelcome, g1, g2, Option.bind_some, Val.asStr?] at r2
  exact ⟨_, _, r2, by simp only [if_true]; rfl, by simp, rfl, rfl, rfl, rfl⟩

/-- What happened on one joiner. -/
def eventsAt (j : Nat) (h : List Event) : List Joiner.Event :=
  h.filterMap fun
    | .hello k r => if k = j then some (.hello r) else none
    | .client k m r => if k = j then some (.received m r) else none
    | _ => none

theorem joiner_hist {cr : Crypto} {auth : Nat → ClientAuth} {h : List Event} {w : World} (hr : Run cr auth h w) (j : Nat) :
    ∃ realm static, Joiner.Hist realm static (eventsAt j h) (w.cli j) := by
  induction hr with
  | new astatic jstatic realm => exact ⟨realm j, jstatic j, .new⟩
  | acceptor k env m _ ih => simpa [eventsAt] using ih
  | @hello h w k c _ ih =>
    obtain ⟨realm, st, ih⟩ := ih
    refine ⟨realm, st, ?_⟩
    by_cases hk : k = j
    · subst hk
      simpa [eventsAt] using Joiner.Hist.hello c ((auth k).toAuth cr) ih
    · have hk' : ¬ j = k := fun e => hk e.symm
      simpa [eventsAt, hk, hk'] using ih
  | @client h w k m _ ih =>
    obtain ⟨realm, st, ih⟩ := ih
    refine ⟨realm, st, ?_⟩
    by_cases hk : k = j
    · subst hk
      simpa [eventsAt] using Joiner.Hist.recv ((auth k).toAuth cr) m ih
    · have hk' : ¬ j = k := fun e => hk e.symm
      simpa [eventsAt, hk, hk'] using ih

/-- **C134** (partial) If nobody makes up WELCOMEs, the session a client has joined is one that an acceptor has opened: with the same session ID,
authid and role.  Missing: the same without that assumption, see `C134_any_router`. -/
theorem C134_joined_partial {cr : Crypto} {auth : Nat → ClientAuth} {h : List Event} {w : World} (hr : Run cr auth h w) (hf : NoForgedWelcome h)
    (j : Nat) (d : SessionDetails) (hd : Joiner.sessionDetails (w.cli j) = .ok d) :
    ∃ i d', Acceptor.sessionDetails (w.acc i) = .ok d' ∧ d'.id = d.id ∧ d'.authID = d.authID ∧ d'.authRole = d.authRole := by
  obtain ⟨realm, st, hj⟩ := joiner_hist hr j
  obtain ⟨h1, id, det, r, h2, he, -, e1, e2, e3, -⟩ := (Joiner.C39_details hj).2 d hd
  have hm : Event.client j (.welcome id det) (.ok r) ∈ h := by
    have : Joiner.Event.received (.welcome id det) (.ok r) ∈ eventsAt j h := by rw [he]; simp
    obtain ⟨x, hx, hx'⟩ := List.mem_filterMap.1 this
    cases x with
    | acceptor i c => cases hx'
    | hello k r =>
      simp only [Option.ite_none_right_eq_some, Option.some.injEq] at hx'
      exact absurd hx'.2 (by intro e; cases e)
    | client k m r =>
      simp only [Option.ite_none_right_eq_some, Option.some.injEq, Joiner.Event.received.injEq] at hx'
      obtain ⟨rfl, rfl, rfl⟩ := hx'
      exact hx
  obtain ⟨i, c, hc, ho⟩ := hf j id det _ hm
  obtain ⟨st', ha⟩ := acceptor_hist hr i
  have hc' := mem_callsAt.2 hc
  obtain ⟨d', hd'⟩ := (Acceptor.C34_details_agree ha).1.2 ⟨c, hc', _, ho, rfl⟩
  obtain ⟨f1, -, f2, f3, -⟩ := (Acceptor.C34_details_agree ha).2 d' hd' c hc' id det ho
  unfold Joiner.HasText at e2 e3
  rw [f2] at e2
  rw [f3] at e3
  simp only [Option.some.injEq, Val.str.injEq] at e2 e3
  exact ⟨i, d', hd', by rw [f1, e1], e2, e3⟩

/-- In the run of `Demo.login` no client has received a WELCOME; here one is passed on, and the client has joined. -/
example : ∃ h w d, Run Demo.cr (fun _ => .anonymous (str "joe") none) h w ∧ NoForgedWelcome h ∧ Joiner.sessionDetails (w.cli 0) = .ok d := by
  let env : Acceptor.Env := ⟨[mAnonymous], fun _ => .ok ⟨str "joe", str "user", none⟩, 5, none, none⟩
  let codec : Codec := ⟨fun _ => some [], fun _ => none⟩
  let det := Acceptor.welcomeDetails (str "realm1") (str "joe") (str "user") mAnonymous
  have r1 : Run Demo.cr (fun _ => .anonymous (str "joe") none) _ _ :=
    .hello 0 codec (.new (fun _ => false) (fun _ => false) (fun _ => str "realm1"))
  refine ⟨_, _, _, Run.client 0 (.welcome 5 (some det)) (Run.acceptor 0 env (Acceptor.Demo.hello mAnonymous none) r1), ?_, rfl⟩
  intro j id d res hm
  simp only [List.mem_cons, Event.client.injEq, reduceCtorEq, List.not_mem_nil, or_false] at hm
  obtain ⟨-, e, -⟩ := hm
  cases e
  exact ⟨0, _, List.mem_cons_of_mem _ (List.mem_cons_self ..), rfl⟩

end Wamp.Intruder
