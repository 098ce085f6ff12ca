import Verif.Spec.Joiner
import Verif.Props.Wire
import Verif.Props.Acceptor
/-!
# C38–C42: the joiner, and the whole handshake
-/
namespace Wamp.Joiner

theorem joining_cons {e : Event} {h : List Event} (hj : Joining h) (h1 : ¬ e.sent) (h2 : ¬ e.accepted .welcome) :
    Joining (e :: h) := by
  obtain ⟨a, x, b, rfl, hx, ha⟩ := hj
  refine ⟨e :: a, x, b, rfl, hx, ?_⟩
  intro y hy; rcases List.mem_cons.1 hy with rfl | hy
  · exact ⟨h1, h2⟩
  · exact ha y hy

theorem fresh_cons {e : Event} {h : List Event} (hj : Fresh h) (h1 : ¬ e.sent) (h2 : ¬ e.accepted .welcome)
    (h3 : ¬ e.accepted .challenge) : Fresh (e :: h) := by
  obtain ⟨a, x, b, rfl, hx, ha⟩ := hj
  refine ⟨e :: a, x, b, rfl, hx, ?_⟩
  intro y hy; rcases List.mem_cons.1 hy with rfl | hy
  · exact ⟨h1, h2, h3⟩
  · exact ha y hy

theorem joining_tail {e : Event} {h : List Event} (hj : Joining (e :: h)) (h1 : ¬ e.sent) :
    Joining h ∧ ¬ e.accepted .welcome := by
  obtain ⟨a, x, b, he, hx, ha⟩ := hj
  cases a with
  | nil => simp only [List.nil_append, List.cons.injEq] at he; rw [he.1] at h1; exact absurd hx h1
  | cons y a =>
    simp only [List.cons_append, List.cons.injEq] at he
    obtain ⟨rfl, rfl⟩ := he
    exact ⟨⟨a, x, b, rfl, hx, fun z hz => ha z (by simp [hz])⟩, (ha e (by simp)).2⟩

theorem fresh_tail {e : Event} {h : List Event} (hj : Fresh (e :: h)) (h1 : ¬ e.sent) :
    Fresh h ∧ ¬ e.accepted .welcome ∧ ¬ e.accepted .challenge := by
  obtain ⟨a, x, b, he, hx, ha⟩ := hj
  cases a with
  | nil => simp only [List.nil_append, List.cons.injEq] at he; rw [he.1] at h1; exact absurd hx h1
  | cons y a =>
    simp only [List.cons_append, List.cons.injEq] at he
    obtain ⟨rfl, rfl⟩ := he
    exact ⟨⟨a, x, b, rfl, hx, fun z hz => ha z (by simp [hz])⟩, (ha e (by simp)).2⟩

/-- The state reflects the history. -/
theorem hist_state {realm : Str} {static : Bool} {h : List Event} {s : State} (hh : Hist realm static h s) :
    (s.st = .helloSent ↔ Fresh h) ∧ ((s.st = .helloSent ∨ s.st = .authenticateSent) ↔ Joining h) ∧
    s.realm = realm ∧ s.static = static := by
  induction hh with
  | new =>
    refine ⟨⟨by rintro ⟨⟩, ?_⟩, ⟨fun h => h.elim nofun nofun, ?_⟩, rfl, rfl⟩
    · rintro ⟨a, e, b, he, _⟩; simp at he
    · rintro ⟨a, e, b, he, _⟩; simp at he
  | @hello h s c a _ ih =>
    obtain ⟨i1, i2, i3, i4⟩ := ih
    unfold sendHello
    cases hc : c.serialize (helloMsg a s) with
    | ok b =>
      exact ⟨⟨fun _ => ⟨[], _, h, rfl, trivial, by simp⟩, fun _ => rfl⟩,
        ⟨fun _ => ⟨[], _, h, rfl, trivial, by simp⟩, fun _ => Or.inl rfl⟩, i3, i4⟩
    | err =>
      have n1 : ¬ (Event.hello (.err : Res Str)).sent := fun h => h
      have n2 : ∀ k, ¬ (Event.hello (.err : Res Str)).accepted k := by rintro k ⟨m, r, h, _⟩; cases h
      exact ⟨⟨fun h => fresh_cons (i1.1 h) n1 (n2 _) (n2 _), fun h => i1.2 (fresh_tail h n1).1⟩,
        ⟨fun h => joining_cons (i2.1 h) n1 (n2 _), fun h => i2.2 (joining_tail h n1).1⟩, i3, i4⟩
    | panic =>
      have n1 : ¬ (Event.hello (.panic : Res Str)).sent := fun h => h
      have n2 : ∀ k, ¬ (Event.hello (.panic : Res Str)).accepted k := by rintro k ⟨m, r, h, _⟩; cases h
      exact ⟨⟨fun h => fresh_cons (i1.1 h) n1 (n2 _) (n2 _), fun h => i1.2 (fresh_tail h n1).1⟩,
        ⟨fun h => joining_cons (i2.1 h) n1 (n2 _), fun h => i2.2 (joining_tail h n1).1⟩, i3, i4⟩
  | @recv h s a m _ ih =>
    obtain ⟨i1, i2, i3, i4⟩ := ih
    have quiet : ∀ (r : Res (Option Msg)), (∀ x, r ≠ .ok x) →
        (s.st = .helloSent ↔ Fresh (.received m r :: h)) ∧
        ((s.st = .helloSent ∨ s.st = .authenticateSent) ↔ Joining (.received m r :: h)) ∧ s.realm = realm ∧
        s.static = static := by
      intro r hr
      have n1 : ¬ (Event.received m r).sent := fun h => h
      have n2 : ∀ k, ¬ (Event.received m r).accepted k := by
        rintro k ⟨m', r', h, _⟩; cases h; exact hr _ rfl
      exact ⟨⟨fun h => fresh_cons (i1.1 h) n1 (n2 _) (n2 _), fun h => i1.2 (fresh_tail h n1).1⟩,
        ⟨fun h => joining_cons (i2.1 h) n1 (n2 _), fun h => i2.2 (joining_tail h n1).1⟩, i3, i4⟩
    cases m
    case welcome id d =>
      simp only [recv, recvWelcome]
      split
      · exact quiet _ (by simp)
      · next hst =>
        split
        · have acc : (Event.received (.welcome id d) (.ok none)).accepted .welcome := ⟨_, _, rfl, rfl⟩
          have ns : ¬ (Event.received (.welcome id d) (.ok none)).sent := fun h => h
          refine ⟨⟨nofun, fun h => absurd acc (fresh_tail h ns).2.1⟩,
            ⟨fun h => h.elim nofun nofun, fun h => absurd acc (joining_tail h ns).2⟩, i3, i4⟩
        · exact quiet _ (by simp)
    case challenge method extra =>
      simp only [recv]
      split
      · exact quiet _ (by simp)
      · next hst =>
        split
        · next sig ex _ =>
          have acc : (Event.received (.challenge method extra) (.ok (some (newAuthenticate sig ex)))).accepted .challenge :=
            ⟨_, _, rfl, rfl⟩
          have nacc : ¬ (Event.received (.challenge method extra) (.ok (some (newAuthenticate sig ex)))).accepted .welcome := by
            rintro ⟨m, r, h, hk⟩; cases h; cases hk
          refine ⟨⟨by rintro ⟨⟩, fun h => absurd acc (fresh_tail h id).2.2⟩,
            ⟨fun _ => joining_cons (i2.1 (Or.inl (Decidable.not_not.1 hst))) id nacc, fun _ => Or.inr rfl⟩, i3, i4⟩
        · exact quiet _ (by simp)
        · exact quiet _ (by simp)
    all_goals exact quiet _ (by simp [recv])

/-- **C38** For every history and every next message:
* a WELCOME is accepted exactly when since the last successful `SendHello` no WELCOME was accepted, and it carries texts as
  `authid` and `authrole`; when none is due it is refused with an error;
* a CHALLENGE is accepted exactly when since the last successful `SendHello` neither WELCOME nor CHALLENGE was accepted,
  and the client authenticator answers it; when none is due it is refused with an error;
* no other message is ever accepted. -/
theorem C38_only_when_due {realm : Str} {static : Bool} {h : List Event} {s : State} (hh : Hist realm static h s)
    (a : Auth) :
    (∀ id d, (recv a s (.welcome id d)).2 = .ok none ↔
      Joining h ∧ (∃ t, HasText d (str "authid") t) ∧ ∃ t, HasText d (str "authrole") t) ∧
    (∀ id d, ¬ Joining h → (recv a s (.welcome id d)).2 = .err) ∧
    (∀ m ex r, (recv a s (.challenge m ex)).2 = .ok r ↔
      Fresh h ∧ ∃ sig e, a.authenticate m ex = .ok (sig, e) ∧ r = some (.authenticate sig e)) ∧
    (∀ m ex, ¬ Fresh h → (recv a s (.challenge m ex)).2 = .err) ∧
    (∀ m, m.kind ≠ .welcome → m.kind ≠ .challenge → (recv a s m).2 = .err) := by
  obtain ⟨i1, i2, -, -⟩ := hist_state hh
  have hx : ∀ (d : GoMap) k, (∃ t, (d.get k).bind Val.asStr? = some t) ↔ ∃ t, HasText d k t := by
    intro d k; unfold HasText
    cases d.get k with
    | none => simp
    | some v => cases v <;> simp [Val.asStr?]
  refine ⟨?_, ?_, ?_, ?_, ?_⟩
  · intro id d
    rw [← i2, ← hx, ← hx]
    simp only [recv, recvWelcome]
    split
    · next hst => simp [hst.1, hst.2]
    · next hst =>
      have hst' : s.st = .helloSent ∨ s.st = .authenticateSent := by
        by_cases h1 : s.st = .helloSent <;> by_cases h2 : s.st = .authenticateSent <;> simp_all
      cases h1 : (d.get (str "authid")).bind Val.asStr? <;> cases h2 : (d.get (str "authrole")).bind Val.asStr? <;> simp [hst']
  · intro id d hj
    rw [← i2] at hj
    simp only [recv, recvWelcome]
    rw [if_pos ⟨fun h => hj (Or.inl h), fun h => hj (Or.inr h)⟩]
  · intro m ex r
    rw [← i1]
    simp only [recv]
    split
    · next hst => simp [hst]
    · next hst =>
      have hst' := Decidable.not_not.1 hst
      cases ha : a.authenticate m ex with
      | ok p =>
        obtain ⟨sig, e⟩ := p
        simp only [hst', true_and, Res.ok.injEq, Prod.mk.injEq, newAuthenticate]
        constructor
        · rintro rfl; exact ⟨_, _, ⟨rfl, rfl⟩, rfl⟩
        · rintro ⟨_, _, ⟨rfl, rfl⟩, rfl⟩; rfl
      | err => simp
      | panic => simp
  · intro m ex hf
    rw [← i1] at hf
    simp [recv, hf]
  · intro m h1 h2
    cases m <;> first | rfl | (exact absurd rfl h1) | (exact absurd rfl h2)

namespace Demo
/-- A codec that encodes everything (to nothing). -/
def codec : Codec := ⟨fun _ => some [], fun _ => none⟩
def auth : Auth := ⟨mTicket, [], none, fun _ _ => .ok ([], none)⟩
def det : GoMap := some [(str "authid", .str (str "joe")), (str "authrole", .str (str "user"))]
end Demo

/-- A history with everything in it: hello, challenge, welcome. -/
example : ∃ h s, Hist (str "r") false h s ∧ h.length = 3 ∧ s.st = .joined :=
  ⟨_, _, .recv Demo.auth (.welcome 1 Demo.det) (.recv Demo.auth (.challenge mTicket none)
    (.hello Demo.codec Demo.auth .new)), rfl, rfl⟩

/-- **C39** The session details are available exactly when some WELCOME was accepted; and they hold the session ID, authid and
authrole of the last accepted WELCOME, and the joiner's own realm. -/
theorem C39_details {realm : Str} {static : Bool} {h : List Event} {s : State} (hh : Hist realm static h s) :
    ((∃ d, sessionDetails s = .ok d) ↔ ∃ e ∈ h, e.accepted .welcome) ∧
    ∀ d, sessionDetails s = .ok d → ∃ h1 id det r h2, h = h1 ++ .received (.welcome id det) (.ok r) :: h2 ∧
      (∀ x ∈ h1, ¬ x.accepted .welcome) ∧ d.id = id ∧ HasText det (str "authid") d.authID ∧
      HasText det (str "authrole") d.authRole ∧ d.realm = realm ∧ d.static = static := by
  induction hh with
  | new => simp [init, sessionDetails, Res.ofOption]
  | @hello h s c a hp ih =>
    have hd : sessionDetails (sendHello c a s).1 = sessionDetails s := by unfold sendHello; split <;> rfl
    have n2 : ∀ r k, ¬ (Event.hello r).accepted k := by rintro r k ⟨m, r, h, _⟩; cases h
    rw [hd]
    refine ⟨?_, ?_⟩
    · rw [ih.1]; simp [n2]
    · intro d h'
      obtain ⟨h1, id, det, r, h2, rfl, hn, hrest⟩ := ih.2 d h'
      refine ⟨_ :: h1, id, det, r, h2, rfl, ?_, hrest⟩
      intro x hx; rcases List.mem_cons.1 hx with rfl | hx
      · exact n2 _ _
      · exact hn x hx
  | @recv h s a m hp ih =>
    have quiet : ∀ (s' : State) (r : Res (Option Msg)), ¬ (Event.received m r).accepted .welcome →
        sessionDetails s' = sessionDetails s →
        ((∃ d, sessionDetails s' = .ok d) ↔ ∃ e ∈ Event.received m r :: h, e.accepted .welcome) ∧
        ∀ d, sessionDetails s' = .ok d → ∃ h1 id det r' h2, Event.received m r :: h = h1 ++ .received (.welcome id det) (.ok r') :: h2 ∧
          (∀ x ∈ h1, ¬ x.accepted .welcome) ∧ d.id = id ∧ HasText det (str "authid") d.authID ∧
          HasText det (str "authrole") d.authRole ∧ d.realm = realm ∧ d.static = static := by
      intro s' r n2 hd
      rw [hd]
      refine ⟨?_, ?_⟩
      · rw [ih.1]; simp [n2]
      · intro d h'
        obtain ⟨h1, id, det, r, h2, rfl, hn, hrest⟩ := ih.2 d h'
        refine ⟨_ :: h1, id, det, r, h2, rfl, ?_, hrest⟩
        intro x hx; rcases List.mem_cons.1 hx with rfl | hx
        · exact n2
        · exact hn x hx
    cases m
    case welcome id det =>
      simp only [recv, recvWelcome]
      split
      · exact quiet s _ (by rintro ⟨m, r, h, _⟩; cases h) rfl
      · split
        · next authID authRole h1 h2 =>
          refine ⟨⟨fun _ => ⟨_, List.mem_cons_self, .welcome id det, none, rfl, rfl⟩, fun _ => ⟨_, rfl⟩⟩, ?_⟩
          intro d hd
          cases hd
          have hx : ∀ k t, (det.get k).bind Val.asStr? = some t → HasText det k t := by
            intro k t; unfold HasText
            cases det.get k with
            | none => simp
            | some v => cases v <;> simp [Val.asStr?]
          obtain ⟨-, -, i3, i4⟩ := hist_state hp
          exact ⟨[], id, det, none, h, rfl, by simp, rfl, hx _ _ h1, hx _ _ h2, i3, i4⟩
        · exact quiet s _ (by rintro ⟨m, r, h, _⟩; cases h) rfl
    case challenge method extra =>
      simp only [recv]
      split
      · exact quiet s _ (by rintro ⟨m, r, h, _⟩; cases h) rfl
      · split <;> exact quiet _ _ (by rintro ⟨m, r, h, hk⟩; cases h <;> cases hk) rfl
    all_goals exact quiet s .err (by rintro ⟨m, r, h, _⟩; cases h) rfl

/-- The extra of this CHALLENGE makes the WAMP-CRA key derivation crash: it has a salt and a negative key length. -/
def BadSalt (ex : GoMap) : Prop :=
  (∃ t, HasText ex (str "salt") t ∧ t ≠ []) ∧ ∃ v n, ex.get (str "keylen") = some v ∧ asInt v = some n ∧ n < 0

/-- **C40** (refuted) A WELCOME without `authid` crashes a joiner that sent HELLO; so does, with the WAMP-CRA authenticator, a
CHALLENGE with a salt and a negative key length. -/
theorem C40_router_crashes_joiner (cr : Crypto) (secret : Str) :
    ∃ h s, Hist (str "r") false h s ∧
      (∀ a, (recv a s (.welcome 1 (some []))).2 = .panic) ∧
      (recv ((newCRA (str "joe") secret none).toAuth cr) s
        (.challenge mCRA (some [(str "keylen", .int .int (-1)), (str "salt", .str (str "x"))]))).2 = .panic :=
  ⟨_, _, .hello Demo.codec Demo.auth .new, fun _ => rfl, rfl⟩

theorem text_eq (ex : GoMap) (k t : Str) (ht : t ≠ []) : ex.text k = t ↔ HasText ex k t := by
  unfold GoMap.text HasText
  cases ex.get k with
  | none => simp [Ne.symm ht]
  | some v => cases v <;> simp [Val.asStr?, Ne.symm ht]

theorem deriveCRAKey_panic (cr : Crypto) (salt secret : Str) (i k : Int) :
    deriveCRAKey cr salt secret i k = .panic ↔ k < 0 := by
  unfold deriveCRAKey
  simp only
  split <;> split <;> first | (simp; omega) | simp_all

theorem cra_panic (cr : Crypto) (secret : Str) (e ex : GoMap) :
    craAuthenticate cr secret e ex = .panic ↔ BadSalt ex := by
  unfold craAuthenticate BadSalt
  simp only
  by_cases hs : ex.text (str "salt") = []
  · have : ¬ ∃ t, HasText ex (str "salt") t ∧ t ≠ [] := by
      rintro ⟨t, h, ht⟩; rw [← text_eq _ _ _ ht] at h; exact ht (h.symm.trans hs)
    simp [hs, this]
  · have h1 : ∃ t, HasText ex (str "salt") t ∧ t ≠ [] := ⟨_, (text_eq _ _ _ hs).1 rfl, hs⟩
    simp only [if_pos (show ex.text (str "salt") ≠ [] from hs), h1, true_and]
    have hb : ∀ (x : Res Str), (x.bind fun k => (Res.ok (signCRA cr (ex.text (str "challenge")) k, e))) = .panic ↔ x = .panic := by
      intro x; cases x <;> simp
    rw [hb, deriveCRAKey_panic]
    cases hk : ex.get (str "keylen") with
    | none => simp
    | some v => cases hv : asInt v <;> simp [hv]

/-- **C40** (partial) With the built-in authenticators, these are the only crashes: for every history, a received message
crashes the joiner exactly when it is a WELCOME that is due and lacks a text `authid` or `authrole`, or a CHALLENGE that is
due, with `BadSalt`, received by a WAMP-CRA client. -/
theorem C40_crashes_exactly_partial {realm : Str} {static : Bool} {h : List Event} {s : State} (hh : Hist realm static h s)
    (cr : Crypto) (ca : ClientAuth) (m : Msg) :
    (recv (ca.toAuth cr) s m).2 = .panic ↔
      (∃ id d, m = .welcome id d ∧ Joining h ∧
        ¬ ((∃ t, HasText d (str "authid") t) ∧ ∃ t, HasText d (str "authrole") t)) ∨
      (∃ method ex, m = .challenge method ex ∧ Fresh h ∧ ca.method = mCRA ∧ BadSalt ex) := by
  obtain ⟨c1, c2, c3, c4, c5⟩ := C38_only_when_due hh (ca.toAuth cr)
  obtain ⟨i1, i2, -, -⟩ := hist_state hh
  cases m
  case welcome id d =>
    by_cases hj : Joining h
    · have ht : (recv (ca.toAuth cr) s (.welcome id d)).2 = .ok none ∨ (recv (ca.toAuth cr) s (.welcome id d)).2 = .panic := by
        rw [← i2] at hj
        simp only [recv, recvWelcome]
        rw [if_neg (by rintro ⟨a, b⟩; rcases hj with hj | hj <;> simp_all)]
        split <;> simp
      have := c1 id d
      simp only [hj, true_and] at this
      simp only [Msg.welcome.injEq, reduceCtorEq, false_and, exists_false, or_false]
      constructor
      · intro hp
        refine ⟨id, d, ⟨rfl, rfl⟩, hj, fun hx => ?_⟩
        rw [this.2 hx] at hp; cases hp
      · rintro ⟨_, _, ⟨rfl, rfl⟩, _, hx⟩
        rcases ht with ht | ht
        · exact absurd (this.1 ht) hx
        · exact ht
    · simp only [c2 id d hj, Msg.welcome.injEq, reduceCtorEq, false_and, exists_false, or_false, false_iff]
      rintro ⟨_, _, _, h, _⟩; exact hj h
  case challenge method ex =>
    by_cases hf : Fresh h
    · have hst := i1.2 hf
      have : (recv (ca.toAuth cr) s (.challenge method ex)).2 = .panic ↔ ca.authenticate cr ex = .panic := by
        simp only [recv, hst, ne_eq, not_true, if_false]
        have : (ca.toAuth cr).authenticate method ex = ca.authenticate cr ex := rfl
        rw [this]
        cases ca.authenticate cr ex <;> simp
      rw [this]
      simp only [reduceCtorEq, false_and, exists_false, Msg.challenge.injEq, false_or]
      have hiff : ca.authenticate cr ex = .panic ↔ ca.method = mCRA ∧ BadSalt ex := by
        cases ca with
        | anonymous i e => simp [ClientAuth.authenticate, ClientAuth.method, show mAnonymous ≠ mCRA by decide]
        | ticket i e t => simp [ClientAuth.authenticate, ClientAuth.method, show mTicket ≠ mCRA by decide]
        | cra i e t => simp [ClientAuth.authenticate, ClientAuth.method, cra_panic]
        | cryptosign i e t =>
          simp [ClientAuth.authenticate, ClientAuth.method, show mCryptoSign ≠ mCRA by decide]
          cases signCryptoSign cr (ex.text (str "challenge")) t <;> simp [Res.ofOption]
      rw [hiff]
      constructor
      · rintro ⟨h1, h2⟩; exact ⟨_, _, ⟨rfl, rfl⟩, hf, h1, h2⟩
      · rintro ⟨_, _, ⟨rfl, rfl⟩, _, h1, h2⟩; exact ⟨h1, h2⟩
    · simp only [c4 method ex hf, reduceCtorEq, false_and, exists_false, false_or, Msg.challenge.injEq, false_iff]
      rintro ⟨_, _, _, h, _⟩; exact hf h
  all_goals
    simp [recv]

example : BadSalt (some [(str "keylen", .int .int (-1)), (str "salt", .str (str "x"))]) :=
  ⟨⟨str "x", rfl, by decide⟩, _, -1, rfl, rfl, by decide⟩

/-- **C41** (refuted) After an ABORT, a WELCOME is still accepted. -/
theorem C41_welcome_after_abort (a : Auth) (d : GoMap) (reason : Str) (args : GoSlice) (kw : GoMap) :
    ∃ h s, Hist (str "r") false (.received (.abort d reason args kw) .err :: h) s ∧
      (recv a s (.welcome 1 Demo.det)).2 = .ok none :=
  ⟨_, _, .recv a (.abort d reason args kw) (.hello Demo.codec Demo.auth .new), rfl⟩

/-- **C41** (partial) Every ABORT, in every state, is reported as an error and changes nothing: it never completes or
advances a join. Missing: it does not end the attempt either. -/
theorem C41_abort_is_error_partial (a : Auth) (s : State) (d : GoMap) (reason : Str) (args : GoSlice) (kw : GoMap) :
    recv a s (.abort d reason args kw) = (s, .err) := rfl

private theorem details_step {realm : Str} {static : Bool} {e : Event} {h : List Event} {s : State} (hh : Hist realm static (e :: h) s)
    (hno : ¬ e.accepted .welcome) : ∃ s0, Hist realm static h s0 ∧ s.details = s0.details := by
  cases hh with
  | @hello h s c a hh =>
    refine ⟨s, hh, ?_⟩
    unfold sendHello
    split <;> rfl
  | @recv h s a m hh =>
    refine ⟨s, hh, ?_⟩
    cases m with
    | welcome sid d =>
      have hn : ∀ r, (recv a s (.welcome sid d)).2 ≠ .ok r := fun r e => hno ⟨_, _, by rw [e], rfl⟩
      revert hn
      simp only [recv, recvWelcome]
      split
      · intro _; rfl
      · split
        · intro hn; exact absurd rfl (hn none)
        · intro _; rfl
    | challenge am ex =>
      simp only [recv]
      split
      · rfl
      · split <;> rfl
    | _ => rfl

/-- **C41** (partial) In every history: an ABORT is reported as an error, and as long as no WELCOME is accepted after it, the client has no session that it did not have before the
ABORT, whatever it is sent and however often it sends HELLO.  Missing: that no WELCOME is accepted after it, see `C41_welcome_after_abort`. -/
theorem C41_no_session_partial {realm : Str} {static : Bool} {later earlier : List Event} {s : State} {d : GoMap} {reason : Str} {args : GoSlice} {kw : GoMap}
    {res : Res (Option Msg)} (hh : Hist realm static (later ++ .received (.abort d reason args kw) res :: earlier) s)
    (hno : ∀ e ∈ later, ¬ e.accepted .welcome) :
    res = .err ∧ ∃ s0, Hist realm static earlier s0 ∧ ∀ x, sessionDetails s = .ok x ↔ sessionDetails s0 = .ok x := by
  induction later generalizing s with
  | nil =>
    have hr : res = .err := by
      rw [List.nil_append] at hh
      cases hh with
      | @recv h s a m hh => rfl
    obtain ⟨s0, h0, h1⟩ := details_step hh (by rintro ⟨m, r, e, hk⟩; cases e; cases hk)
    exact ⟨hr, s0, h0, fun x => by rw [sessionDetails, sessionDetails, h1]⟩
  | cons e later ih =>
    obtain ⟨s1, h1, h2⟩ := details_step hh (hno e (by simp))
    obtain ⟨h3, s0, h4, h5⟩ := ih h1 fun x hx => hno x (by simp [hx])
    exact ⟨h3, s0, h4, fun x => by rw [← h5 x, sessionDetails, sessionDetails, h2]⟩

/-- After HELLO, an ABORT and another HELLO. -/
example : ∃ later earlier s, Hist (str "r") false (later ++ .received (.abort none (str "x") none none) .err :: earlier) s ∧
    (∀ e ∈ later, ¬ e.accepted .welcome) ∧ later ≠ [] ∧ earlier ≠ [] :=
  ⟨[_], [_], _, .hello Demo.codec Demo.auth (.recv Demo.auth (.abort none (str "x") none none) (.hello Demo.codec Demo.auth .new)),
    (by rintro e he ⟨m, r, e', -⟩; cases List.mem_singleton.1 he; cases e'), List.cons_ne_nil _ _, List.cons_ne_nil _ _⟩

end Wamp.Joiner
