import Verif.Spec.Foreign
import Verif.Props.Quiet
import Verif.Props.Agree
import Verif.Props.NetComplete
import Verif.Props.Parts
/-!
# Every execution with foreign clients looks to the others like one without
-/
namespace Wamp.System
open Wamp Session

variable {w : Str → Str → Bool} {F : Nat → Bool}

/-- `y`, with foreign clients, and `x`, without: the same router, the same for all clients that are not foreign.  In `x` a foreign client has sent
those of its messages that the router has handled and not just refused. -/
structure Like (F : Nat → Bool) (y x : Log) : Prop where
  broker : x.sys.broker = y.sys.broker
  dealer : x.sys.dealer = y.sys.dealer
  joined : x.sys.joined = y.sys.joined
  client : ∀ s, F s = false → x.sys.client s = y.sys.client s
  up : ∀ s, F s = false → x.sys.up s = y.sys.up s
  down : ∀ s, F s = false → x.sys.down s = y.sys.down s
  sent : ∀ s, F s = false → x.sys.sent s = y.sys.sent s
  got : ∀ s, F s = false → x.got s = y.got s
  idle : ∀ s, F s = true → x.sys.up s = []
  mine : ∀ s, F s = true → ∃ old, y.sys.sent s = (y.sys.up s).reverse ++ old ∧ (x.sys.sent s).Sublist old
  here : ∀ s, F s = true → y.sys.up s ≠ [] → s ∈ x.sys.joined
  subs : ∀ s, F s = true → ∀ t i, Broker.current x.sys.bh s t = some i → (after (x.sys.client s) (x.sys.down s) .subscriptions i).isSome = true
  bh : x.sys.bh.Sublist y.sys.bh
  dh : x.sys.dh.Sublist y.sys.dh
  inbox : ∀ s, x.inbox s = y.inbox s

theorem like_new : Like F Log.new Log.new :=
  ⟨rfl, rfl, rfl, fun _ _ => rfl, fun _ _ => rfl, fun _ _ => rfl, fun _ _ => rfl, fun _ _ => rfl, fun _ _ => rfl,
    fun _ _ => ⟨[], rfl, .refl _⟩, fun _ _ h => absurd rfl h, fun _ _ _ _ h => (nomatch h), .refl _, .refl _, fun _ => rfl⟩

/-- Handling message `m` of `s` in state `y` leads to `z`: calls `eb` on the broker, `ed` on the dealer, messages `out`; the same for every
state with the same broker and dealer. -/
def HandledAs (w : Str → Str → Bool) (y z : Sys) (s : Nat) (m : Msg) (wo : List Str) (so : List Nat) (rnd : Nat) : Prop :=
    ∃ eb ed out, z = { y with
        broker := z.broker, dealer := z.dealer, bh := eb ++ y.bh, dh := ed ++ y.dh, down := fun s' => y.down s' ++ messagesFor s' out } ∧
      (∀ x : Sys, x.broker = y.broker → x.dealer = y.dealer → x.handle w s m wo so rnd = some { x with
        broker := z.broker, dealer := z.dealer, bh := eb ++ x.bh, dh := ed ++ x.dh, down := fun s' => x.down s' ++ messagesFor s' out }) ∧
      ((∃ op, callB s m wo so = some op ∧ eb = [⟨op, (Broker.step w y.broker op).2⟩] ∧ out = brokerOut (Broker.step w y.broker op).2) ∨
       (callB s m wo so = none ∧ eb = [] ∧ ∀ q ∈ out, fromDealer q.2))

theorem handle_parts {y z : Sys} {s : Nat} {m : Msg} {wo : List Str} {so : List Nat} {rnd : Nat} (h : y.handle w s m wo so rnd = some z) :
    HandledAs w y z s m wo so rnd := by
  have broker : ∀ op, callB s m wo so = some op →
      (∀ x : Sys, x.handle w s m wo so rnd = some ((x.onBroker w op).post (brokerOut (Broker.step w x.broker op).2))) → HandledAs w y z s m wo so rnd := by
    intro op ho e
    rw [e] at h
    cases h
    exact ⟨[⟨op, (Broker.step w y.broker op).2⟩], [], brokerOut (Broker.step w y.broker op).2, rfl, fun x hb hd => by
      rw [e]; simp only [Sys.post, Sys.onBroker, hb, hd, List.singleton_append, List.nil_append], .inl ⟨op, ho, rfl, rfl⟩⟩
  have dealer : callB s m wo so = none → (∀ x : Sys, x.handle w s m wo so rnd = (x.onDealer w (.receive s m wo rnd)).map fun v =>
      v.post (dealerOut (Dealer.step w x.dealer (.receive s m wo rnd)).2)) → HandledAs w y z s m wo so rnd := by
    intro hn e
    rw [e] at h
    obtain ⟨v, e1, e2⟩ := Option.map_eq_some_iff.1 h
    obtain ⟨hnp, g1⟩ := onDealer_some e1
    subst g1; subst e2
    refine ⟨[], [⟨.receive s m wo rnd, (Dealer.step w y.dealer (.receive s m wo rnd)).2⟩],
      dealerOut (Dealer.step w y.dealer (.receive s m wo rnd)).2, rfl, fun x hb hd => ?_, .inr ⟨hn, rfl, fun q hq => dealerOut_from _ _ _ _ _ q hq⟩⟩
    rw [e]
    have : x.onDealer w (.receive s m wo rnd) = some { x with
        dealer := (Dealer.step w x.dealer (.receive s m wo rnd)).1, dh := ⟨.receive s m wo rnd, (Dealer.step w x.dealer (.receive s m wo rnd)).2⟩ :: x.dh } := by
      rw [Sys.onDealer]
      split
      · rename_i hp; rw [hd] at hp; exact absurd hp hnp
      · rfl
    rw [this]
    simp only [Option.map_some, Sys.post, hd, hb, List.singleton_append, List.nil_append]
  have nothing : callB s m wo so = none → (∀ x : Sys, x.handle w s m wo so rnd = some x) → HandledAs w y z s m wo so rnd := by
    intro hn e
    rw [e] at h
    cases h
    exact ⟨[], [], [], by simp [messagesFor], fun x hb hd => by rw [e, ← hb, ← hd]; simp [messagesFor], .inr ⟨hn, rfl, fun _ h => (nomatch h)⟩⟩
  cases m with
  | publish => exact broker _ rfl fun _ => rfl
  | subscribe => exact broker _ rfl fun _ => rfl
  | unsubscribe => exact broker _ rfl fun _ => rfl
  | call => exact dealer rfl fun _ => rfl
  | yield => exact dealer rfl fun _ => rfl
  | register => exact dealer rfl fun _ => rfl
  | unregister => exact dealer rfl fun _ => rfl
  | error => exact dealer rfl fun _ => rfl
  | _ => exact nothing rfl fun _ => rfl

/-- Handling a message that is not a SUBSCRIBE or UNSUBSCRIBE of `s'`. -/
theorem others_subs {bh : List Broker.Event} {b : Broker.State} (hh : Broker.Hist w bh b) (hlen : bh.length < 2 ^ 53)
    {s s' : Nat} {m : Msg} {wo : List Str} {so : List Nat} {eb : List Broker.Event} {out : List (Nat × Msg)}
    (hp : (∃ op, callB s m wo so = some op ∧ eb = [⟨op, (Broker.step w b op).2⟩] ∧ out = brokerOut (Broker.step w b op).2) ∨
       (callB s m wo so = none ∧ eb = [] ∧ ∀ q ∈ out, fromDealer q.2))
    (hne : s' ≠ s ∨ ((∀ q o t, m ≠ .subscribe q o t) ∧ ∀ q g, m ≠ .unsubscribe q g)) :
    (∀ t i, Broker.current (eb ++ bh) s' t = some i → Broker.current bh s' t = some i) ∧
    ∀ m' ∈ messagesFor s' out, (∀ r g, m' ≠ .subscribed r g) ∧ ∀ r, m' ≠ .unsubscribed r := by
  rcases hp with ⟨op, ho, rfl, rfl⟩ | ⟨-, rfl, hd⟩
  · cases m <;> simp only [callB, Option.some.injEq, reduceCtorEq] at ho <;> subst ho
    case subscribe q o t =>
      have hs : s' ≠ s := hne.resolve_right fun h => h.1 _ _ _ rfl
      rcases subscribed_of (w := w) (b := b) (s := s) (q := q) (o := o) (t := t) with e | ⟨i, e⟩
      · rw [e]; exact ⟨fun t i h => h, fun m' h => (nomatch h)⟩
      · rw [e]
        refine ⟨fun t' j hj => ?_, fun m' h => ?_⟩
        · simpa [Broker.current, Ne.symm hs] using hj
        · simp only [brokerOut, messagesFor_one, if_neg (Ne.symm hs)] at h; cases h
    case unsubscribe q g =>
      have hs : s' ≠ s := hne.resolve_right fun h => h.2 _ _ rfl
      rcases Broker.C78_unsubscribe hh hlen s q g with ⟨-, e⟩ | ⟨-, e⟩
      · rw [e]
        refine ⟨fun t' j hj => ?_, fun m' h => ?_⟩
        · simpa [Broker.current, Ne.symm hs] using hj
        · simp only [brokerOut, messagesFor_one, if_neg (Ne.symm hs)] at h; cases h
      · rw [e]; exact ⟨fun t i h => h, fun m' h => (nomatch h)⟩
    case publish q o t a k =>
      refine ⟨fun t i h => h, fun m' h => ?_⟩
      rcases Broker.publish_result hh hlen s q o t a k wo so with ⟨-, e, -⟩ | ⟨-, pub, e, n, -, -, e2, e3⟩
      · have hp : (Broker.step w b (.publish s q o t a k wo so)).2 = .err := by simp [Broker.step, e]
        rw [hp] at h; cases h
      · have hp : (Broker.step w b (.publish s q o t a k wo so)).2 = .ok (.pub pub) := by simp [Broker.step, e]
        rw [hp] at h
        simp only [brokerOut, messagesFor_append, List.mem_append] at h
        rcases h with h | h
        · rcases e3 with ⟨e3, -⟩ | ⟨t', i, -, e3, -⟩
          · rw [e3] at h; cases h
          · rw [e3] at h
            obtain ⟨s'', -, h2⟩ := List.mem_map.1 (mem_messagesFor.1 h)
            obtain ⟨-, rfl⟩ := Prod.mk.inj h2
            exact ⟨fun _ _ h => (nomatch h), fun _ h => (nomatch h)⟩
        · rw [e2] at h
          split at h
          · rename_i h2
            obtain ⟨rfl, rfl⟩ := Prod.mk.inj (List.mem_singleton.1 (mem_messagesFor.1 h))
            split at h2 <;> cases h2
            exact ⟨fun _ _ h => (nomatch h), fun _ h => (nomatch h)⟩
          · cases h
  · refine ⟨fun t i h => h, fun m' h => ?_⟩
    have := hd _ (mem_messagesFor.1 h)
    cases m' <;> simp only [fromDealer] at this <;> exact ⟨fun _ _ h => (nomatch h), fun _ h => (nomatch h)⟩

theorem run_append {l : Log} (as bs : List Action) : l.run w (as ++ bs) = (l.run w as).bind fun l' => l'.run w bs := by
  induction as generalizing l with
  | nil => rfl
  | cons a as ih =>
    simp only [List.cons_append, Log.run]
    cases l.act w a with
    | none => rfl
    | some z => exact ih

theorem taken_append {l l' : Log} {as : List Action} (h : l.run w as = some l') (bs : List Action) :
    l.taken w (as ++ bs) = l.taken w as ++ l'.taken w bs := by
  induction as generalizing l with
  | nil => cases h; rfl
  | cons a as ih =>
    obtain ⟨z, h1, h2⟩ := Option.bind_eq_some_iff.1 h
    rw [List.cons_append, Net.taken_cons h1, ih h2, Net.taken_cons h1 as, List.append_assoc]

/-- A client takes all messages on its link. -/
theorem drain (s : Nat) (l : Log) : ∃ as, l.run w as = some ⟨{ l.sys with
      client := upd l.sys.client s (after (l.sys.client s) (l.sys.down s)), down := upd l.sys.down s [] }, upd l.got s (l.got s ++ l.sys.down s)⟩ ∧
    l.taken w as = [] := by
  generalize hq : l.sys.down s = q
  induction q generalizing l with
  | nil =>
    refine ⟨[], ?_, rfl⟩
    have h1 : upd l.sys.client s (after (l.sys.client s) []) = l.sys.client := by funext s'; by_cases h : s' = s <;> simp [upd, h, after]
    have h2 : upd l.sys.down s [] = l.sys.down := by funext s'; by_cases h : s' = s <;> simp [upd, h, hq]
    have h3 : upd l.got s (l.got s ++ []) = l.got := by funext s'; by_cases h : s' = s <;> simp [upd, h]
    rw [h1, h2, h3]; rfl
  | cons m q ih =>
    have ha : l.act w (.deliver s) = some ⟨{ l.sys with
        client := upd l.sys.client s (next (l.sys.client s) m), down := upd l.sys.down s q }, upd l.got s (l.got s ++ [m])⟩ := by
      simp only [Log.act, Sys.act, hq, Option.map_some, List.take_succ_cons, List.take_zero]
      rfl
    have two : ∀ {α : Type} (f : Nat → α) (a b : α), upd (upd f s a) s b = upd f s b := by
      intro α f a b; funext s'; by_cases h : s' = s <;> simp [upd, h]
    obtain ⟨as, h1, h2⟩ := ih ⟨{ l.sys with
        client := upd l.sys.client s (next (l.sys.client s) m), down := upd l.sys.down s q }, upd l.got s (l.got s ++ [m])⟩ (upd_same _ _ _)
    refine ⟨.deliver s :: as, ?_, ?_⟩
    · rw [Log.run, ha, Option.bind_some, h1]
      simp only [upd_same, two, after, List.append_assoc, List.singleton_append]
    · rw [Net.taken_cons ha, h2]; simp only [Log.taken, ha, List.append_nil]

/-- Messages that a `Session` may refuse to send. -/
def refusable : Msg → Prop
  | .unsubscribe .. => True
  | .error t _ _ _ _ _ => t ≠ 68
  | m => callB 0 m [] [] = none ∧ ¬forDealer m

/-- A `Session` lets a message through; or the router refuses it, too. -/
theorem send_or_refuse {bh : List Broker.Event} {b : Broker.State} (hh : Broker.Hist w bh b) (hlen : bh.length < 2 ^ 53) {st : Session.State} (s : Nat) (m : Msg)
    (hs : ∀ t i, Broker.current bh s t = some i → (st .subscriptions i).isSome = true) :
    (∃ c d, (send (.ok []) m).run st = (c, .ok d)) ∨
    (refusable m ∧ ∀ (y z : Sys) (wo : List Str) (so : List Nat) (rnd : Nat), y.broker = b → y.handle w s m wo so rnd = some z →
      ∃ eb ed, z = { y with bh := eb ++ y.bh, dh := ed ++ y.dh }) := by
  have no : callB 0 m [] [] = none → ¬forDealer m → refusable m → refusable m ∧ ∀ (y z : Sys) (wo : List Str) (so : List Nat) (rnd : Nat), y.broker = b →
      y.handle w s m wo so rnd = some z → ∃ eb ed, z = { y with bh := eb ++ y.bh, dh := ed ++ y.dh } := by
    intro h1 h2 h3
    refine ⟨h3, fun y z wo so rnd _ h => ⟨[], [], ?_⟩⟩
    cases m <;> simp only [callB, forDealer, reduceCtorEq, not_true_eq_false] at h1 h2 <;> (cases h; rfl)
  cases m
  case call r _ _ _ _ _ => exact .inl ⟨_, _, rfl⟩
  case register r _ _ => exact .inl ⟨_, _, rfl⟩
  case unregister r g => exact .inl ⟨_, _, rfl⟩
  case goodbye => exact .inl ⟨_, _, rfl⟩
  case subscribe q o t => exact .inl ⟨_, _, rfl⟩
  case yield r o _ _ _ =>
    simp only [send]
    split
    · exact .inl ⟨_, _, rfl⟩
    · exact .inl ⟨_, _, rfl⟩
  case publish r o _ _ _ =>
    simp only [send]
    split
    · exact .inl ⟨_, _, rfl⟩
    · exact .inl ⟨_, _, rfl⟩
  case error t r d u a k =>
    simp only [send]
    split
    · rename_i ht
      refine .inr ⟨ht, fun y z wo so rnd _ h => ?_⟩
      simp only [Sys.handle] at h
      obtain ⟨v, e1, rfl⟩ := Option.map_eq_some_iff.1 h
      obtain ⟨-, rfl⟩ := onDealer_some e1
      have e : Dealer.step w y.dealer (.receive s (.error t r d u a k) wo rnd) = (y.dealer, .err) := by
        simp [Dealer.step, Dealer.receive, Dealer.error, ht]
      rw [e]
      exact ⟨[], [_], by simp [Sys.post, dealerOut, messagesFor]; rfl⟩
    · exact .inl ⟨_, _, rfl⟩
  case unsubscribe q g =>
    cases hg : st .subscriptions g with
    | some v =>
      refine .inl ⟨st.put .unsubscribe ((st .unsubscribe).set q g), [], ?_⟩
      simp [send, Prog.run, hg]
    | none =>
      refine .inr ⟨trivial, fun y z wo so rnd hb h => ?_⟩
      rcases Broker.C78_unsubscribe hh hlen s q g with ⟨⟨t, ht⟩, -⟩ | ⟨-, e⟩
      · have := hs t g ht
        rw [hg] at this; cases this
      · subst hb
        cases h
        refine ⟨[⟨.receive s (.unsubscribe q g), .err⟩], [], ?_⟩
        simp [Sys.post, Sys.onBroker, e, brokerOut, messagesFor]
  all_goals exact .inr (no rfl (fun h => h) ⟨rfl, fun h => h⟩)

theorem sent_subs {st c : Session.State} {m : Msg} {d : Str} (h : (send (.ok []) m).run st = (c, .ok d)) : c .subscriptions = st .subscriptions := by
  have e : ((send (.ok []) m).run st).1 = c := by rw [h]
  subst e
  cases m <;> simp only [send] <;> try rfl
  case yield => split <;> rfl
  case publish => split <;> rfl
  case error => split <;> rfl
  case unsubscribe q g => simp only [Prog.run]; cases st .subscriptions g <;> rfl

/-- After a client has sent a message that its `Session` lets through and taken the answer, it has all its subscriptions in its table. -/
theorem own_subs {bh : List Broker.Event} {b : Broker.State} (hh : Broker.Hist w bh b) (hlen : bh.length < 2 ^ 53) {st c : Session.State}
    {s : Nat} {m : Msg} {d : Str} {wo : List Str} {so : List Nat} {eb : List Broker.Event} {out : List (Nat × Msg)}
    (hp : (∃ op, callB s m wo so = some op ∧ eb = [⟨op, (Broker.step w b op).2⟩] ∧ out = brokerOut (Broker.step w b op).2) ∨
       (callB s m wo so = none ∧ eb = [] ∧ ∀ q ∈ out, fromDealer q.2))
    (hs : ∀ t i, Broker.current bh s t = some i → (st .subscriptions i).isSome = true) (hsend : (send (.ok []) m).run st = (c, .ok d)) :
    ∀ t i, Broker.current (eb ++ bh) s t = some i → (after c (messagesFor s out) .subscriptions i).isSome = true := by
  have hc := sent_subs hsend
  have other : ((∀ q o t, m ≠ .subscribe q o t) ∧ ∀ q g, m ≠ .unsubscribe q g) →
      ∀ t i, Broker.current (eb ++ bh) s t = some i → (after c (messagesFor s out) .subscriptions i).isSome = true := by
    intro hm t i hi
    obtain ⟨g1, g2⟩ := others_subs hh hlen hp (.inr hm)
    rw [after_subs g2, hc]
    exact hs t i (g1 t i hi)
  cases m
  case subscribe q o t =>
    rcases hp with ⟨op, ho, rfl, rfl⟩ | ⟨h, -⟩
    · cases ho
      rcases subscribed_of (w := w) (b := b) (s := s) (q := q) (o := o) (t := t) with e | ⟨i, e⟩
      · rw [e]
        intro t i h
        simp only [brokerOut, messagesFor, List.filter_nil, List.map_nil, after]
        rw [hc]; exact hs t i h
      · rw [e]
        cases hsend
        intro t' j hj
        simp only [List.singleton_append, Broker.current, true_and] at hj
        have e : after (st.put .subscribe ((st .subscribe).set q 0)) (messagesFor s (brokerOut (.ok (.msg (.subscribed q i) s)))) .subscriptions j =
            ((st .subscriptions).set i 0) j := by
          simp [brokerOut, messagesFor_one, after, next, recv, Prog.run, Session.State.put]
        refine (congrArg Option.isSome e).trans ?_
        by_cases hji : j = i
        · subst hji; rw [FMap.set_same]; rfl
        · rw [FMap.set_other _ _ hji]
          split at hj
          · cases hj; exact absurd rfl hji
          · exact hs t' j hj
    · cases h
  case unsubscribe q g =>
    rcases hp with ⟨op, ho, rfl, rfl⟩ | ⟨h, -⟩
    · cases ho
      rcases Broker.C78_unsubscribe hh hlen s q g with ⟨-, e⟩ | ⟨-, e⟩
      · rw [e]
        intro t' j hj
        simp only [List.singleton_append, Broker.current, true_and] at hj
        split at hj
        · cases hj
        rename_i hne
        have hjg : j ≠ g := by rintro rfl; exact hne hj
        have hss := hs t' j hj
        simp only [send, Prog.run] at hsend
        cases hg : st .subscriptions g with
        | none => rw [hg] at hsend; cases hsend
        | some v =>
          rw [hg] at hsend
          cases hsend
          simpa [brokerOut, messagesFor_one, after, next, recv, Prog.run, Session.State.put, hg, FMap.del, hjg] using hss
      · rw [e]
        intro t i h
        simp only [brokerOut, messagesFor, List.filter_nil, List.map_nil, after]
        rw [hc]; exact hs t i h
    · cases h
  all_goals exact other ⟨fun _ _ _ h => (nomatch h), fun _ _ h => (nomatch h)⟩

/-- A session joins or leaves, or disclosure is switched: the same for every state with the same broker, dealer and sessions. -/
def AdminAs (w : Str → Str → Bool) (y z : Sys) (a : Action) : Prop :=
    ∃ bop rb e j, adminB bop ∧
      z = { y with broker := z.broker, dealer := z.dealer, joined := j ++ y.joined, bh := ⟨bop, rb⟩ :: y.bh, dh := e :: y.dh } ∧
      ∀ x : Sys, x.broker = y.broker → x.dealer = y.dealer → x.joined = y.joined → x.act w a = some { x with
        broker := z.broker, dealer := z.dealer, joined := j ++ x.joined, bh := ⟨bop, rb⟩ :: x.bh, dh := e :: x.dh }

theorem admin_parts {y z : Sys} {a : Action} (ha : (∃ d, a = .join d) ∨ (∃ s o o', a = .leave s o o') ∨ ∃ p q, a = .disclose p q)
    (h : y.act w a = some z) : AdminAs w y z a := by
  have key : ∀ (bop : Broker.Op) (dop : Dealer.Op) (j : List Nat), adminB bop →
      (({ y with joined := j ++ y.joined } : Sys).onBroker w bop).onDealer w dop = some z →
      (∀ x : Sys, x.joined = y.joined → x.act w a = (({ x with joined := j ++ x.joined } : Sys).onBroker w bop).onDealer w dop) → AdminAs w y z a := by
    intro bop dop j hb h hx
    obtain ⟨hnp, rfl⟩ := onDealer_some h
    refine ⟨bop, (Broker.step w y.broker bop).2, ⟨dop, (Dealer.step w y.dealer dop).2⟩, j, hb, rfl, fun x h1 h2 h3 => ?_⟩
    rw [hx x h3]
    simp only [Sys.onDealer, Sys.onBroker, h1, h2]
    simp only [Sys.onBroker] at hnp
    split
    · rename_i hp; exact absurd hp hnp
    · rfl
  rcases ha with ⟨d, rfl⟩ | ⟨s, o, o', rfl⟩ | ⟨p, q, rfl⟩
  · simp only [Sys.act] at h
    split at h
    · cases h
    · rename_i hd
      exact key (.add d) (.add d) [d.id] trivial h fun x hx => by simp only [Sys.act, hx, if_neg hd, List.singleton_append]
  · exact key (.remove s o) (.remove s o') [] trivial h fun x _ => rfl
  · exact key (.disclose p) (.disclose q) [] trivial h fun x _ => rfl

theorem act_admin {l : Log} {a : Action} (ha : (∃ d, a = .join d) ∨ (∃ s o o', a = .leave s o o') ∨ ∃ p q, a = .disclose p q) :
    l.act w a = (l.sys.act w a).map fun y => ⟨y, l.got⟩ := by
  rcases ha with ⟨d, rfl⟩ | ⟨_, _, _, rfl⟩ | ⟨_, _, rfl⟩ <;> rfl

/-- Every move of an execution with foreign clients has its counterpart. -/
theorem like_move {y y' x : Log} (hl : Like F y x) (hx : Log.Reach w x) {v : Move} (h : y.move w F v = some y') (hlen : y'.sys.bh.length < 2 ^ 53) :
    ∃ as x', x.run w as = some x' ∧ Like F y' x' ∧
      (x.taken w as = y.takenFrom w F [v] ∨ (x.taken w as = [] ∧ ∀ q ∈ y.takenFrom w F [v], F q.1 = true ∧ refusable q.2)) ∧
      ∀ s wo so rnd, v = .act (.route s wo so rnd) → F s = false → as = [.route s wo so rnd] := by
  have hbh := (reach_hist (log_sys hx)).1
  -- an action that is the same in both
  have same : ∀ {a : Action} {x' : Log}, x.act w a = some x' → v = .act a → Like F y' x' → (x.taken w [a] = y.takenFrom w F [v]) →
      ∃ as x', x.run w as = some x' ∧ Like F y' x' ∧
      (x.taken w as = y.takenFrom w F [v] ∨ (x.taken w as = [] ∧ ∀ q ∈ y.takenFrom w F [v], F q.1 = true ∧ refusable q.2)) ∧
      ∀ s wo so rnd, v = .act (.route s wo so rnd) → F s = false → as = [.route s wo so rnd] := by
    intro a x' h1 hv h2 h3
    exact ⟨[a], x', by simp only [Log.run, h1, Option.bind_some], h2, .inl h3, fun s wo so rnd e _ => by rw [hv] at e; cases e; rfl⟩
  have tk : ∀ {a : Action}, (∀ p wo so rnd, a ≠ .route p wo so rnd) → x.taken w [a] = [] := by
    intro a ha
    cases a <;> simp only [Log.taken, List.nil_append] <;> first | exact absurd rfl (ha _ _ _ _) | (split <;> rfl)
  have ty : ∀ {a : Action}, v = .act a → (∀ p wo so rnd, a ≠ .route p wo so rnd) → y.takenFrom w F [v] = [] := by
    rintro a rfl ha
    cases a <;> simp only [Log.takenFrom, List.nil_append] <;> first | exact absurd rfl (ha _ _ _ _) | (split <;> rfl)
  have ne : ∀ {s s' : Nat}, F s = true → F s' = false → s ≠ s' := by rintro s s' h1 h2 rfl; rw [h1] at h2; cases h2
  have admin : ∀ {a : Action}, v = .act a → ((∃ d, a = .join d) ∨ (∃ s o o', a = .leave s o o') ∨ ∃ p q, a = .disclose p q) → y.act w a = some y' →
      ∃ as x', x.run w as = some x' ∧ Like F y' x' ∧
      (x.taken w as = y.takenFrom w F [v] ∨ (x.taken w as = [] ∧ ∀ q ∈ y.takenFrom w F [v], F q.1 = true ∧ refusable q.2)) ∧
      ∀ s wo so rnd, v = .act (.route s wo so rnd) → F s = false → as = [.route s wo so rnd] := by
    intro a hv ha h
    have hr : ∀ p wo so rnd, a ≠ .route p wo so rnd := by
      rintro p wo so rnd rfl; rcases ha with ⟨d, e⟩ | ⟨_, _, _, e⟩ | ⟨_, _, e⟩ <;> cases e
    rw [act_admin ha] at h
    obtain ⟨z, h1, rfl⟩ := Option.map_eq_some_iff.1 h
    obtain ⟨bop, rb, e, j, hb, hz, hxx⟩ := admin_parts ha h1
    refine same (a := a) (x' := ⟨{ x.sys with
        broker := z.broker, dealer := z.dealer, joined := j ++ x.sys.joined, bh := ⟨bop, rb⟩ :: x.sys.bh, dh := e :: x.sys.dh }, x.got⟩) ?_ hv ?_ ?_
    · rw [act_admin ha, hxx x.sys hl.broker hl.dealer hl.joined]; rfl
    · rw [hz]
      exact ⟨rfl, rfl, by simp only [hl.joined], hl.client, hl.up, hl.down, hl.sent, hl.got, hl.idle, hl.mine,
        fun s hs hu => List.mem_append.2 (.inr (hl.here s hs hu)), fun s hs t i hc => hl.subs s hs t i (current_admin hb _ s t i hc),
        hl.bh.cons_cons _, hl.dh.cons_cons _, hl.inbox⟩
    · rw [tk hr, ty hv hr]
  match v, h with
  | .act (.join d), h => exact admin rfl (.inl ⟨_, rfl⟩) h
  | .act (.leave s o o'), h => exact admin rfl (.inr (.inl ⟨_, _, _, rfl⟩)) h
  | .act (.disclose p q), h => exact admin rfl (.inr (.inr ⟨_, _, rfl⟩)) h
  | .act (.send s data m), h =>
    simp only [Log.move] at h
    split at h
    · cases h
    rename_i hF
    have hF : F s = false := by simpa using hF
    obtain ⟨z, h1, rfl⟩ := Option.map_eq_some_iff.1 h
    simp only [Sys.act] at h1
    split at h1
    · rename_i c b hc
      split at h1
      · rename_i hj
        cases h1
        refine same (a := .send s data m) (x' := ⟨{ x.sys with
          client := upd x.sys.client s c, up := upd x.sys.up s (x.sys.up s ++ [m]), sent := upd x.sys.sent s (m :: x.sys.sent s) }, x.got⟩) ?_ rfl ?_ ?_
        · simp only [Log.act, Sys.act, hl.client s hF, hc, hl.joined, if_pos hj, Option.map_some]
        · have hu : ∀ {α : Type} (f g : Nat → α) (u v : α) (s' : Nat), F s' = false → f s' = g s' → u = v → upd f s u s' = upd g s v s' := by
            intro α f g u v s' _ h1 h2; simp only [upd, h1, h2]
          have hk : ∀ {α : Type} (f : Nat → α) (u : α) (s' : Nat), F s' = true → upd f s u s' = f s' := fun f u s' hs' => upd_other _ _ (ne hs' hF)
          refine ⟨hl.broker, hl.dealer, hl.joined, fun s' hs' => hu _ _ _ _ s' hs' (hl.client s' hs') rfl,
            fun s' hs' => hu _ _ _ _ s' hs' (hl.up s' hs') (by rw [hl.up s hF]), hl.down, fun s' hs' => hu _ _ _ _ s' hs' (hl.sent s' hs') (by rw [hl.sent s hF]), hl.got,
            fun s' hs' => ?_, fun s' hs' => ?_, fun s' hs' => ?_, fun s' hs' => ?_, hl.bh, hl.dh, hl.inbox⟩
          · exact (hk _ _ s' hs').trans (hl.idle s' hs')
          · simp only [hk _ _ s' hs']; exact hl.mine s' hs'
          · simp only [hk _ _ s' hs']; exact hl.here s' hs'
          · simp only [hk _ _ s' hs']; exact hl.subs s' hs'
        · rw [tk (by intro _ _ _ _ h; cases h), ty rfl (by intro _ _ _ _ h; cases h)]
      · cases h1
    · cases h1
  | .act (.deliver s), h =>
    obtain ⟨z, h1, rfl⟩ := Option.map_eq_some_iff.1 h
    simp only [Sys.act] at h1
    split at h1
    · cases h1
    rename_i m rest hd
    cases h1
    cases hF : F s with
    | true =>
      refine ⟨[], x, rfl, ?_, .inl ((ty rfl (by intro _ _ _ _ h; cases h)).symm ▸ rfl), fun _ _ _ _ e => (nomatch e)⟩
      have hk : ∀ {α : Type} (f : Nat → α) (u : α) (s' : Nat), F s' = false → upd f s u s' = f s' := fun f u s' hs' => upd_other _ _ (Ne.symm (ne hF hs'))
      exact ⟨hl.broker, hl.dealer, hl.joined, fun s' hs' => (hl.client s' hs').trans (hk _ _ s' hs').symm, hl.up,
        fun s' hs' => (hl.down s' hs').trans (hk _ _ s' hs').symm, hl.sent, fun s' hs' => (hl.got s' hs').trans (hk _ _ s' hs').symm,
        hl.idle, hl.mine, hl.here, hl.subs, hl.bh, hl.dh,
        fun s' => (hl.inbox s').trans (inbox_still h (by intro _ _ _ _ h; cases h) s').symm⟩
    | false =>
      refine same (a := .deliver s) (x' := ⟨{ x.sys with
          client := upd x.sys.client s (next (x.sys.client s) m), down := upd x.sys.down s rest }, upd x.got s (x.got s ++ (x.sys.down s).take 1)⟩) ?_ rfl ?_ ?_
      · simp only [Log.act, Sys.act, hl.down s hF, hd, Option.map_some]
        rfl
      · have hu : ∀ {α : Type} (f g : Nat → α) (u v : α) (s' : Nat), f s' = g s' → u = v → upd f s u s' = upd g s v s' := by
          intro α f g u v s' h1 h2; simp only [upd, h1, h2]
        have hk : ∀ {α : Type} (f : Nat → α) (u : α) (s' : Nat), F s' = true → upd f s u s' = f s' := fun f u s' hs' => upd_other _ _ (ne hs' hF)
        refine ⟨hl.broker, hl.dealer, hl.joined, fun s' hs' => hu _ _ _ _ s' (hl.client s' hs') (by rw [hl.client s hF]; rfl), hl.up,
          fun s' hs' => hu _ _ _ _ s' (hl.down s' hs') rfl, hl.sent, fun s' hs' => hu _ _ _ _ s' (hl.got s' hs') (by rw [hl.got s hF, hl.down s hF]),
          hl.idle, hl.mine, hl.here, fun s' hs' => ?_, hl.bh, hl.dh, fun s' => ?_⟩
        · simp only [hk _ _ s' hs']; exact hl.subs s' hs'
        · refine Eq.trans ?_ ((hl.inbox s').trans (inbox_still h (by intro _ _ _ _ h; cases h) s').symm)
          by_cases hss : s' = s
          · subst hss; simp [Log.inbox, hl.down s' hF, hd, upd_same]
          · simp only [Log.inbox, upd_other _ _ hss]
      · rw [tk (by intro _ _ _ _ h; cases h), ty rfl (by intro _ _ _ _ h; cases h)]
  | .inject s m, h =>
    simp only [Log.move] at h
    split at h
    · rename_i hF
      cases h
      obtain ⟨hF, hj⟩ := hF
      have hk : ∀ {α : Type} (f : Nat → α) (u : α) (s' : Nat), F s' = false → upd f s u s' = f s' := fun f u s' hs' => upd_other _ _ (Ne.symm (ne hF hs'))
      refine ⟨[], x, rfl, ?_, .inl ?_, fun _ _ _ _ e => (nomatch e)⟩
      · refine ⟨hl.broker, hl.dealer, hl.joined, hl.client, fun s' hs' => (hl.up s' hs').trans (hk _ _ s' hs').symm, hl.down,
          fun s' hs' => (hl.sent s' hs').trans (hk _ _ s' hs').symm, hl.got, hl.idle, fun s' hs' => ?_, fun s' hs' hu => ?_, hl.subs, hl.bh, hl.dh, hl.inbox⟩
        · obtain ⟨old, h1, h2⟩ := hl.mine s' hs'
          by_cases hss : s' = s
          · subst hss
            refine ⟨old, ?_, h2⟩
            simp only [upd_same, List.reverse_append, List.reverse_singleton, h1]
            rfl
          · simp only [upd_other _ _ hss]; exact ⟨old, h1, h2⟩
        · by_cases hss : s' = s
          · subst hss; rw [hl.joined]; exact hj
          · simp only [upd_other _ _ hss] at hu; exact hl.here s' hs' hu
      · simp only [Log.takenFrom, List.nil_append, Log.taken]
        split <;> rfl
    · cases h
  | .act (.route s wo so rnd), h =>
    obtain ⟨z, h1, rfl⟩ := Option.map_eq_some_iff.1 h
    simp only [Sys.act] at h1
    split at h1
    · cases h1
    rename_i m rest hup
    obtain ⟨eb, ed, out, hz, hxx, hp⟩ := handle_parts h1
    have hbl : x.sys.bh.length < 2 ^ 53 := by
      have h1 := hl.bh.length_le
      have h2 : z.bh = eb ++ y.sys.bh := by rw [hz]
      simp only [h2, List.length_append] at hlen
      omega
    have hby : Broker.Hist w x.sys.bh y.sys.broker := hl.broker ▸ hbh
    have hsb : ∀ s', s' ≠ s → F s' = true → ∀ t i, Broker.current (eb ++ x.sys.bh) s' t = some i →
        (after (x.sys.client s') (x.sys.down s' ++ messagesFor s' out) .subscriptions i).isSome = true := by
      intro s' hne hs' t i hc
      obtain ⟨g1, g2⟩ := others_subs hby hbl hp (.inl hne)
      rw [after_append, after_subs g2]
      exact hl.subs s' hs' t i (g1 t i hc)
    cases hF : F s with
    | false =>
      refine same (a := .route s wo so rnd) (x' := ⟨{ x.sys with
          broker := z.broker, dealer := z.dealer, up := upd x.sys.up s rest, bh := eb ++ x.sys.bh, dh := ed ++ x.sys.dh,
          down := fun s' => x.sys.down s' ++ messagesFor s' out }, x.got⟩) ?_ rfl ?_ ?_
      · simp only [Log.act, Sys.act, hl.up s hF, hup, hxx { x.sys with up := upd x.sys.up s rest } hl.broker hl.dealer, Option.map_some]
      · rw [hz]
        have hk : ∀ {α : Type} (f : Nat → α) (u : α) (s' : Nat), F s' = true → upd f s u s' = f s' := fun f u s' hs' => upd_other _ _ (ne hs' hF)
        refine ⟨rfl, rfl, hl.joined, hl.client, fun s' hs' => ?_, fun s' hs' => by simp only [hl.down s' hs'], hl.sent, hl.got,
          fun s' hs' => (hk _ _ s' hs').trans (hl.idle s' hs'), fun s' hs' => ?_, fun s' hs' hu => ?_, fun s' hs' => hsb s' (ne hs' hF) hs',
          hl.bh.append_left _, hl.dh.append_left _, fun s' => ?_⟩
        · simp only [upd, hl.up s' hs']
        · simp only [hk _ _ s' hs']; exact hl.mine s' hs'
        · simp only [hk _ _ s' hs'] at hu; exact hl.here s' hs' hu
        · have := hl.inbox s'
          simp only [Log.inbox, ← List.append_assoc] at this ⊢
          rw [this]
      · simp only [Log.taken, Log.takenFrom, hl.up s hF]
        congr 1
        split <;> split <;> rfl
    | true =>
      have tks : y.takenFrom w F [.act (.route s wo so rnd)] = [(s, m)] := by
        simp only [Log.takenFrom, hup, List.take_succ_cons, List.take_zero, List.map_cons, List.map_nil]
        split <;> rfl
      have hk : ∀ {α : Type} (f : Nat → α) (u : α) (s' : Nat), F s' = false → upd f s u s' = f s' := fun f u s' hs' => upd_other _ _ (Ne.symm (ne hF hs'))
      have no : ∀ {as : List Action} s' wo' so' rnd', Move.act (.route s wo so rnd) = .act (.route s' wo' so' rnd') → F s' = false →
          as = [.route s' wo' so' rnd'] := by
        intro as s' wo' so' rnd' e hf
        cases e
        rw [hF] at hf; cases hf
      rcases send_or_refuse hby hbl s m (hl.subs s hF) with ⟨c, d, hsend⟩ | ⟨hrf, hno⟩
      · obtain ⟨ds, hd1, hd2⟩ := drain (w := w) s x
        have hj : s ∈ x.sys.joined := hl.here s hF (by rw [hup]; exact (nomatch ·))
        have two : ∀ {α : Type} (f : Nat → α) (a b : α), upd (upd f s a) s b = upd f s b := by
          intro α f a b; funext s'; by_cases h : s' = s <;> simp [upd, h]
        have hup0 : upd x.sys.up s [] = x.sys.up := by funext s'; by_cases h : s' = s <;> simp [upd, h, hl.idle s hF]
        have run2 : Log.run w ⟨{ x.sys with
            client := upd x.sys.client s (after (x.sys.client s) (x.sys.down s)), down := upd x.sys.down s [] }, upd x.got s (x.got s ++ x.sys.down s)⟩
            [.send s [] m, .route s wo so rnd] = some ⟨{ x.sys with
            broker := z.broker, dealer := z.dealer, client := upd x.sys.client s c, bh := eb ++ x.sys.bh, dh := ed ++ x.sys.dh,
            down := fun s' => upd x.sys.down s [] s' ++ messagesFor s' out, sent := upd x.sys.sent s (m :: x.sys.sent s) }, upd x.got s (x.got s ++ x.sys.down s)⟩ := by
          simp only [Log.run, Log.act, Sys.act, upd_same, hsend, if_pos hj, Option.map_some, Option.bind_some, hl.idle s hF, List.nil_append, two, hup0]
          rw [hxx { x.sys with
            client := upd x.sys.client s c, down := upd x.sys.down s [], sent := upd x.sys.sent s (m :: x.sys.sent s) } hl.broker hl.dealer]
          rfl
        have tk2 : Log.taken w ⟨{ x.sys with
            client := upd x.sys.client s (after (x.sys.client s) (x.sys.down s)), down := upd x.sys.down s [] }, upd x.got s (x.got s ++ x.sys.down s)⟩
            [.send s [] m, .route s wo so rnd] = [(s, m)] := by
          simp only [Log.taken, Log.act, Sys.act, upd_same, hsend, if_pos hj, Option.map_some, hl.idle s hF, List.nil_append, List.take_succ_cons,
            List.take_zero, List.map_cons, List.map_nil]
          split <;> rfl
        have hrun := run_append (w := w) (l := x) ds [.send s [] m, .route s wo so rnd]
        rw [hd1, Option.bind_some, run2] at hrun
        refine ⟨_, _, hrun, ?_, .inl ?_, no⟩
        · rw [hz]
          refine ⟨rfl, rfl, hl.joined, fun s' hs' => ?_, fun s' hs' => ?_, fun s' hs' => ?_, fun s' hs' => ?_, fun s' hs' => ?_, hl.idle,
            fun s' hs' => ?_, fun s' hs' hu => ?_, fun s' hs' => ?_, hl.bh.append_left _, hl.dh.append_left _, fun s' => ?_⟩
          · simp only [hk _ _ s' hs']; exact hl.client s' hs'
          · simp only [hk _ _ s' hs']; exact hl.up s' hs'
          · simp only [hk _ _ s' hs', hl.down s' hs']
          · simp only [hk _ _ s' hs']; exact hl.sent s' hs'
          · simp only [hk _ _ s' hs']; exact hl.got s' hs'
          · obtain ⟨old, g1, g2⟩ := hl.mine s' hs'
            by_cases hss : s' = s
            · subst hss
              refine ⟨m :: old, ?_, ?_⟩
              · simp only [upd_same]
                rw [g1, hup]; simp
              · simp only [upd_same]
                exact g2.cons_cons _
            · simp only [upd_other _ _ hss]; exact ⟨old, g1, g2⟩
          · by_cases hss : s' = s
            · subst hss; exact hj
            · simp only [upd_other _ _ hss] at hu; exact hl.here s' hs' hu
          · by_cases hss : s' = s
            · subst hss
              simp only [upd_same, List.nil_append]
              exact own_subs hby hbl hp (hl.subs s' hs') hsend
            · simp only [upd_other _ _ hss]; exact hsb s' hss hs'
          · have := hl.inbox s'
            simp only [Log.inbox, ← List.append_assoc] at this ⊢
            by_cases hss : s' = s
            · subst hss; simp only [upd_same, List.append_nil, this]
            · simp only [upd_other _ _ hss, this]
        · rw [taken_append hd1, hd2, tk2, tks]; rfl
      · obtain ⟨eb', ed', hz'⟩ := hno { y.sys with up := upd y.sys.up s rest } z wo so rnd rfl h1
        refine ⟨[], x, rfl, ?_, .inr ⟨rfl, fun q hq => ?_⟩, no⟩
        · rw [hz']
          refine ⟨hl.broker, hl.dealer, hl.joined, hl.client, fun s' hs' => (hl.up s' hs').trans (hk _ _ s' hs').symm, hl.down, hl.sent, hl.got, hl.idle,
            fun s' hs' => ?_, fun s' hs' hu => ?_, hl.subs, hl.bh.trans (List.sublist_append_right _ _), hl.dh.trans (List.sublist_append_right _ _),
            hl.inbox⟩
          · obtain ⟨old, g1, g2⟩ := hl.mine s' hs'
            by_cases hss : s' = s
            · subst hss
              refine ⟨m :: old, ?_, g2.trans (List.sublist_cons_self _ _)⟩
              simp only [upd_same]
              rw [g1, hup]; simp
            · simp only [upd_other _ _ hss]; exact ⟨old, g1, g2⟩
          · by_cases hss : s' = s
            · subst hss; exact hl.here s' hs' (by rw [hup]; exact (nomatch ·))
            · simp only [upd_other _ _ hss] at hu; exact hl.here s' hs' hu
        · rw [tks] at hq
          cases List.mem_singleton.1 hq
          exact ⟨hF, hrf⟩

/-- `xs` is `ys` without some messages of foreign clients that a `Session` may refuse to send. -/
inductive Dropped (F : Nat → Bool) : List (Nat × Msg) → List (Nat × Msg) → Prop where
  | nil : Dropped F [] []
  | keep (q : Nat × Msg) {xs ys : List (Nat × Msg)} : Dropped F xs ys → Dropped F (q :: xs) (q :: ys)
  | drop {q : Nat × Msg} {xs ys : List (Nat × Msg)} : F q.1 = true → refusable q.2 → Dropped F xs ys → Dropped F xs (q :: ys)

theorem Dropped.same : ∀ {xs as bs : List (Nat × Msg)}, Dropped F as bs → Dropped F (xs ++ as) (xs ++ bs)
  | [], _, _, h => h
  | _ :: _, _, _, h => .keep _ (Dropped.same h)

theorem Dropped.dropAll : ∀ {ys as bs : List (Nat × Msg)}, (∀ q ∈ ys, F q.1 = true ∧ refusable q.2) → Dropped F as bs → Dropped F as (ys ++ bs)
  | [], _, _, _, h => h
  | q :: _, _, _, hy, h => .drop (hy q (.head _)).1 (hy q (.head _)).2 (Dropped.dropAll (fun q' h' => hy q' (.tail _ h')) h)

theorem Dropped.mem {xs ys : List (Nat × Msg)} (h : Dropped F xs ys) : ∀ q ∈ xs, q ∈ ys := by
  induction h with
  | nil => exact fun _ h => h
  | keep q _ ih =>
    intro p hp
    rcases List.mem_cons.1 hp with rfl | hp
    · exact .head _
    · exact .tail _ (ih p hp)
  | drop _ _ _ ih => exact fun p hp => .tail _ (ih p hp)

theorem Dropped.filterMap {β : Type} {f : Nat × Msg → Option β} (hf : ∀ q, refusable q.2 → f q = none) {xs ys : List (Nat × Msg)} (h : Dropped F xs ys) :
    xs.filterMap f = ys.filterMap f := by
  induction h with
  | nil => rfl
  | keep q _ ih => simp only [List.filterMap_cons, ih]
  | drop _ hr _ ih => simp only [List.filterMap_cons, hf _ hr, ih]

theorem Dropped.filter {f : Nat × Msg → Bool} (hf : ∀ q, refusable q.2 → f q = false) {xs ys : List (Nat × Msg)} (h : Dropped F xs ys) :
    xs.filter f = ys.filter f := by
  induction h with
  | nil => rfl
  | keep q _ ih => simp only [List.filter_cons, ih]
  | drop _ hr _ ih => simp only [List.filter_cons, hf _ hr, ih]; rfl

theorem Dropped.answersTo {rp : Bool} {i : Nat} {xs ys : List (Nat × Msg)} (h : Dropped F xs ys) :
    answersTo rp i (xs.map (·.2)) = System.answersTo rp i (ys.map (·.2)) := by
  induction h with
  | nil => rfl
  | keep q _ ih =>
    obtain ⟨p, m⟩ := q
    cases m <;> simp only [List.map_cons, System.answersTo, ih]
  | @drop q _ _ _ hr _ ih =>
    obtain ⟨p, m⟩ := q
    rw [ih]
    cases m <;> simp only [List.map_cons, System.answersTo]
    case yield => exact absurd hr.2 (fun h => h trivial)
    case error t _ _ _ _ _ => rw [if_neg (fun h => hr h.1)]

theorem move_bh {y y' : Log} {v : Move} (h : y.move w F v = some y') : y.sys.bh.length ≤ y'.sys.bh.length ∧ y.sys.dh.length ≤ y'.sys.dh.length := by
  have key : ∀ a, y.act w a = some y' → y.sys.bh.length ≤ y'.sys.bh.length ∧ y.sys.dh.length ≤ y'.sys.dh.length := by
    intro a h
    obtain ⟨z, h1, rfl⟩ := Option.map_eq_some_iff.1 h
    exact ⟨(change_grows (act_change h1)).1, (change_grows (act_change h1)).2.1⟩
  match v, h with
  | .inject s m, h =>
    simp only [Log.move] at h
    split at h
    · cases h; exact ⟨Nat.le_refl _, Nat.le_refl _⟩
    · cases h
  | .act (.send s d m), h =>
    simp only [Log.move] at h
    split at h
    · cases h
    · exact key _ h
  | .act (.join d), h => exact key (.join d) h
  | .act (.leave s o o'), h => exact key (.leave s o o') h
  | .act (.disclose p q), h => exact key (.disclose p q) h
  | .act (.route s wo so rnd), h => exact key (.route s wo so rnd) h
  | .act (.deliver s), h => exact key (.deliver s) h

theorem moves_bh {y y' : Log} (vs : List Move) (h : y.moves w F vs = some y') : y.sys.bh.length ≤ y'.sys.bh.length ∧ y.sys.dh.length ≤ y'.sys.dh.length := by
  induction vs generalizing y with
  | nil => cases h; exact ⟨Nat.le_refl _, Nat.le_refl _⟩
  | cons v vs ih =>
    obtain ⟨z, h1, h2⟩ := Option.bind_eq_some_iff.1 h
    exact ⟨Nat.le_trans (move_bh h1).1 (ih h2).1, Nat.le_trans (move_bh h1).2 (ih h2).2⟩

/-- Every execution with foreign clients has its counterpart. -/
theorem moves_like {y y' x : Log} (hl : Like F y x) (hx : Log.Reach w x) (vs : List Move) (h : y.moves w F vs = some y') (hlen : y'.sys.bh.length < 2 ^ 53) :
    ∃ as x', x.run w as = some x' ∧ Like F y' x' ∧ Dropped F (x.taken w as) (y.takenFrom w F vs) := by
  induction vs generalizing y x with
  | nil => cases h; exact ⟨[], x, rfl, hl, .nil⟩
  | cons v vs ih =>
    obtain ⟨z, h1, h2⟩ := Option.bind_eq_some_iff.1 h
    obtain ⟨as, x1, g1, g2, g3, -⟩ := like_move hl hx h1 (Nat.lt_of_le_of_lt (moves_bh vs h2).1 hlen)
    obtain ⟨bs, x2, k1, k2, k3⟩ := ih g2 (log_run hx _ g1) h2
    refine ⟨as ++ bs, x2, by rw [run_append, g1, Option.bind_some, k1], k2, ?_⟩
    have e : y.takenFrom w F (v :: vs) = y.takenFrom w F [v] ++ z.takenFrom w F vs := by
      simp only [Log.takenFrom, h1, List.append_assoc, List.nil_append]
    rw [taken_append g1, e]
    rcases g3 with g3 | ⟨g3, g4⟩
    · rw [g3]; exact .same k3
    · rw [g3]; exact .dropAll g4 k3

theorem open_like {y : Log} (h : Log.Open w F y) (hlen : y.sys.bh.length < 2 ^ 53) : ∃ x, Log.Reach w x ∧ Like F y x := by
  induction h with
  | new => exact ⟨_, .new, like_new⟩
  | move v _ h ih =>
    obtain ⟨x, h1, h2⟩ := ih (Nat.lt_of_le_of_lt (move_bh h).1 hlen)
    obtain ⟨as, x', g1, g2, -⟩ := like_move h2 h1 h hlen
    exact ⟨x', log_run h1 _ g1, g2⟩

/-! What carries over. -/

theorem Like.sub {y x : Log} (h : Like F y x) (s : Nat) : (x.sys.sent s).Sublist (y.sys.sent s) := by
  cases hF : F s with
  | false => exact h.sent s hF ▸ .refl _
  | true =>
    obtain ⟨old, h1, h2⟩ := h.mine s hF
    rw [h1]; exact h2.trans (List.sublist_append_right _ _)

theorem Like.mem {y x : Log} (h : Like F y x) {s : Nat} {m : Msg} (hm : m ∈ x.sys.sent s) : m ∈ y.sys.sent s := (h.sub s).mem hm

theorem Like.fresh {y x : Log} (h : Like F y x) {s : Nat} (hf : Fresh y.sys s) : Fresh x.sys s := ((h.sub s).filterMap _).nodup hf

theorem Like.stays {y x : Log} (h : Like F y x) {s : Nat} (hs : Stays y.sys s) : Stays x.sys s :=
  ⟨fun e he => hs.1 e (h.bh.mem he), fun e he => hs.2 e (h.dh.mem he)⟩

theorem Like.bhLen {y x : Log} (h : Like F y x) (hb : y.sys.bh.length < 2 ^ 53) : x.sys.bh.length < 2 ^ 53 := Nat.lt_of_le_of_lt h.bh.length_le hb

theorem Like.dhLen {y x : Log} (h : Like F y x) (hd : y.sys.dh.length ≤ 2 ^ 53) : x.sys.dh.length ≤ 2 ^ 53 := Nat.le_trans h.dh.length_le hd

end Wamp.System
