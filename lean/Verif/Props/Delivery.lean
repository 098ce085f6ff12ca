import Verif.Spec.Delivery
import Verif.Props.System
import Verif.Props.Broker
import Verif.Props.DealerCalls
/-!
# C105, C106: where the messages a client gets come from
-/
namespace Wamp.System
open Wamp.Session

variable {w : Str → Str → Bool}

theorem log_sys {l : Log} (h : Log.Reach w l) : Reach w l.sys := by
  induction h with
  | new => exact .new
  | act a _ h ih =>
    obtain ⟨y, h1, h2⟩ := Option.map_eq_some_iff.1 h
    subst h2
    exact ih.act a h1

/-- What an action does to the messages. -/
inductive Moves (w : Str → Str → Bool) (l l' : Log) : Prop where
  | quiet : l'.sys.up = l.sys.up → l'.sys.sent = l.sys.sent → (∀ s, l'.inbox s = l.inbox s) → Moves w l l'
  | send (p : Nat) (m : Msg) : l'.sys.up = upd l.sys.up p (l.sys.up p ++ [m]) → l'.sys.sent = upd l.sys.sent p (m :: l.sys.sent p) →
      (∀ s, l'.inbox s = l.inbox s) → Moves w l l'
  | broker (p : Nat) (m : Msg) (rest : List Msg) (wo : List Str) (so : List Nat) (op : Broker.Op) : l.sys.up p = m :: rest →
      l'.sys.up = upd l.sys.up p rest → l'.sys.sent = l.sys.sent → callB p m wo so = some op →
      (∀ s, l'.inbox s = l.inbox s ++ messagesFor s (brokerOut (Broker.step w l.sys.broker op).2)) →
      l'.sys.bh = ⟨op, (Broker.step w l.sys.broker op).2⟩ :: l.sys.bh → l'.sys.broker = (Broker.step w l.sys.broker op).1 → Moves w l l'
  | dealer (p : Nat) (m : Msg) (rest : List Msg) (wo : List Str) (rnd : Nat) : l.sys.up p = m :: rest →
      l'.sys.up = upd l.sys.up p rest → l'.sys.sent = l.sys.sent → forDealer m →
      (∀ s, l'.inbox s = l.inbox s ++ messagesFor s (dealerOut (Dealer.step w l.sys.dealer (.receive p m wo rnd)).2)) →
      l'.sys.dh = ⟨.receive p m wo rnd, (Dealer.step w l.sys.dealer (.receive p m wo rnd)).2⟩ :: l.sys.dh → Moves w l l'
  | ignore (p : Nat) (m : Msg) (rest : List Msg) : l.sys.up p = m :: rest → l'.sys.up = upd l.sys.up p rest → l'.sys.sent = l.sys.sent →
      (∀ s, l'.inbox s = l.inbox s) → Moves w l l'

theorem log_moves {l l' : Log} {a : Action} (h0 : l.act w a = some l') : Moves w l l' := by
  obtain ⟨x, got⟩ := l
  obtain ⟨y, h, e⟩ := Option.map_eq_some_iff.1 h0
  clear h0
  subst e
  cases a <;> simp only [Sys.act] at h
  case join d =>
    split at h
    · cases h
    · obtain ⟨h1, rfl⟩ := onDealer_some h
      exact .quiet rfl rfl fun _ => rfl
  case leave s o o' =>
    obtain ⟨h1, rfl⟩ := onDealer_some h
    exact .quiet rfl rfl fun _ => rfl
  case disclose p c =>
    obtain ⟨h1, rfl⟩ := onDealer_some h
    exact .quiet rfl rfl fun _ => rfl
  case send s data m =>
    split at h
    · rename_i c b hr
      split at h
      · cases h
        exact .send s m rfl rfl fun _ => rfl
      · cases h
    · cases h
  case deliver s =>
    split at h
    · cases h
    · rename_i m rest hd
      cases h
      refine .quiet rfl rfl fun s' => ?_
      simp only [Log.inbox, upd]
      split
      · rename_i e; subst e; rw [hd]; simp
      · rfl
  case route s wo so rnd =>
    split at h
    · cases h
    · rename_i m rest hu
      have key : forDealer m → ((({ x with up := upd x.up s rest } : Sys).onDealer w (.receive s m wo rnd)).map fun y =>
          y.post (dealerOut (Dealer.step w x.dealer (.receive s m wo rnd)).2)) = some y → Moves w ⟨x, got⟩ ⟨y, got⟩ := by
        intro hm h
        obtain ⟨z, hz, rfl⟩ := Option.map_eq_some_iff.1 h
        obtain ⟨h1, rfl⟩ := onDealer_some hz
        exact .dealer s m rest wo rnd hu rfl rfl hm (fun s' => by simp [Log.inbox, Sys.post]) rfl
      cases m <;> simp only [Sys.handle] at h
      case publish q o t a k =>
        cases h
        exact .broker s _ rest wo so (.publish s q o t a k wo so) hu rfl rfl rfl (fun s' => by simp [Log.inbox, Sys.post, Sys.onBroker]) rfl rfl
      case subscribe q o t =>
        cases h
        exact .broker s _ rest wo so (.receive s (.subscribe q o t)) hu rfl rfl rfl (fun s' => by simp [Log.inbox, Sys.post, Sys.onBroker]) rfl rfl
      case unsubscribe q g =>
        cases h
        exact .broker s _ rest wo so (.receive s (.unsubscribe q g)) hu rfl rfl rfl (fun s' => by simp [Log.inbox, Sys.post, Sys.onBroker]) rfl rfl
      all_goals first | exact key trivial h | (cases h; exact .ignore s _ rest hu rfl rfl fun _ => rfl)

/-! ### What clients have sent -/

/-- Messages under way to the router and those broker and dealer were given were sent by the client. -/
structure SentInv (x : Sys) : Prop where
  up : ∀ p, ∀ m ∈ x.up p, m ∈ x.sent p
  bh : ∀ e ∈ x.bh, ∀ p m, e.op = .receive p m → m ∈ x.sent p
  dh : ∀ e ∈ x.dh, ∀ p m o r, e.op = .receive p m o r → m ∈ x.sent p

theorem sent_change {x y : Sys} (h : Change w x y) (ih : SentInv x) : SentInv y := by
  obtain ⟨i1, i2, i3⟩ := ih
  cases h with
  | admin bop dop j h1 h2 h3 =>
    refine ⟨i1, ?_, ?_⟩
    · intro e he p m hop
      rcases List.mem_cons.1 he with rfl | he
      · simp only at hop; subst hop; exact h1.elim
      · exact i2 e he p m hop
    · intro e he p m o r hop
      rcases List.mem_cons.1 he with rfl | he
      · simp only at hop; subst hop; exact h2.elim
      · exact i3 e he p m o r hop
  | send s data m c b h1 =>
    have key : ∀ {f : Nat → List Msg} (p : Nat) (m' : Msg), m' ∈ f p → m' ∈ upd f s (m :: f s) p := by
      intro f p m' hm'
      simp only [upd]
      split
      · rename_i e; subst e; exact .tail _ hm'
      · exact hm'
    refine ⟨?_, fun e he p m' hop => key p m' (i2 e he p m' hop), fun e he p m' o r hop => key p m' (i3 e he p m' o r hop)⟩
    intro p m' hm'
    simp only [upd] at hm' ⊢
    split at hm' <;> rename_i e
    · subst e
      rw [if_pos rfl]
      rcases List.mem_append.1 hm' with hm' | hm'
      · exact .tail _ (i1 _ _ hm')
      · rcases List.mem_singleton.1 hm' with rfl; exact .head _
    · rw [if_neg e]; exact i1 p m' hm'
  | deliver s m rest h1 => exact ⟨i1, i2, i3⟩
  | broker s m rest wo so op h1 h2 =>
    refine ⟨?_, ?_, i3⟩
    · intro p m' hm'
      simp only [upd] at hm'
      split at hm'
      · rename_i e; subst e; exact i1 _ _ (by rw [h1]; exact .tail _ hm')
      · exact i1 p m' hm'
    · intro e he p m' hop
      rcases List.mem_cons.1 he with rfl | he
      · simp only at hop
        subst hop
        cases m <;> simp only [callB, reduceCtorEq, Option.some.injEq, Broker.Op.receive.injEq] at h2
        all_goals
          obtain ⟨rfl, rfl⟩ := h2
          exact i1 _ _ (by rw [h1]; exact .head _)
      · exact i2 e he p m' hop
  | dealer s m rest wo rnd h1 h2 h3 =>
    refine ⟨?_, i2, ?_⟩
    · intro p m' hm'
      simp only [upd] at hm'
      split at hm'
      · rename_i e; subst e; exact i1 _ _ (by rw [h1]; exact .tail _ hm')
      · exact i1 p m' hm'
    · intro e he p m' o r hop
      rcases List.mem_cons.1 he with rfl | he
      · simp only [Dealer.Op.receive.injEq] at hop
        obtain ⟨rfl, rfl, -, -⟩ := hop
        exact i1 _ _ (by rw [h1]; exact .head _)
      · exact i3 e he p m' o r hop
  | ignore s m rest h1 =>
    refine ⟨?_, i2, i3⟩
    intro p m' hm'
    simp only [upd] at hm'
    split at hm'
    · rename_i e; subst e; exact i1 _ _ (by rw [h1]; exact .tail _ hm')
    · exact i1 p m' hm'

theorem reach_sent {x : Sys} (h : Reach w x) : SentInv x := by
  induction h with
  | new => exact ⟨by simp [Sys.new], by simp [Sys.new], by simp [Sys.new]⟩
  | act a _ ha ih => exact sent_change (act_change ha) ih

/-! ### What one message leads to -/

theorem messagesFor_out {s : Nat} (m : Msg) {l : List Nat} (hs : s ∉ l) : messagesFor s (l.map fun s => (s, m)) = [] := by
  simp only [messagesFor, List.map_eq_nil_iff, List.filter_eq_nil_iff, List.mem_map]
  rintro _ ⟨z, hz, rfl⟩
  simp only [decide_eq_true_eq]
  rintro rfl
  exact hs hz

theorem messagesFor_in {s : Nat} (m : Msg) {l : List Nat} (hn : l.Nodup) (hs : s ∈ l) : messagesFor s (l.map fun s => (s, m)) = [m] := by
  induction l with
  | nil => cases hs
  | cons y l ih =>
    rw [List.nodup_cons] at hn
    rw [List.map_cons, ← List.singleton_append, messagesFor_append, messagesFor_one]
    by_cases e : y = s
    · subst e
      rw [if_pos rfl]
      have : messagesFor y (l.map fun s => (s, m)) = [] := messagesFor_out m hn.1
      rw [this]; rfl
    · rw [if_neg e]
      exact ih hn.2 ((List.mem_cons.1 hs).resolve_left fun h => e h.symm)

theorem messagesFor_pub (s : Nat) (pub : Broker.Publication) : messagesFor s (brokerOut (.ok (.pub pub))) =
    messagesFor s (match pub.event with | some m => pub.recipients.map fun s => (s, m) | none => []) ++
    messagesFor s (match pub.ack with | some (m, s) => [(s, m)] | none => []) := messagesFor_append s _ _

/-- A PUBLISH, SUBSCRIBE or UNSUBSCRIBE leads to at most one EVENT and one other message for `s`. -/
theorem broker_caused {x : Sys} (hx : Reach w x) (hlen : x.bh.length < 2 ^ 53) (s p : Nat) (m : Msg) (wo : List Str) (so : List Nat) (op : Broker.Op)
    (hc : callB p m wo so = some op) :
    ∃ ev other, messagesFor s (brokerOut (Broker.step w x.broker op).2) = ev ++ other ∧
      (ev = [] ∨ ∃ e, ev = [e] ∧ isEvent e = true ∧ Caused w x.sent s p m e) ∧
      (other = [] ∨ ∃ e, other = [e] ∧ isEvent e = false ∧ Caused w x.sent s p m e) := by
  have hh := (reach_hist hx).1
  have hs := reach_sent hx
  cases m <;> simp only [callB, reduceCtorEq, Option.some.injEq] at hc <;> subst hc
  case publish q o u a k =>
    have hres := Broker.publish_result hh hlen p q o u a k wo so
    rcases hres with ⟨-, he, -⟩ | ⟨-, pub, hpub, n, -, -, hack, hev⟩
    · exact ⟨[], [], by simp [Broker.step, he, brokerOut, messagesFor], .inl rfl, .inl rfl⟩
    · have hstep : (Broker.step w x.broker (.publish p q o u a k wo so)).2 = .ok (.pub pub) := by simp only [Broker.step, hpub, Res.map_ok]
      have hC71 := Broker.C71_recipients_partial hh hlen p q o u a k wo so pub hstep s
      refine ⟨messagesFor s (match pub.event with | some m => pub.recipients.map fun s => (s, m) | none => []),
        messagesFor s (match pub.ack with | some (m, s) => [(s, m)] | none => []), ?_, ?_, ?_⟩
      · rw [hstep, messagesFor_pub]
      · rcases hev with ⟨e1, -, -⟩ | ⟨t, i, -, e1, hnd, -⟩
        · left; rw [e1]; rfl
        · rw [e1]
          simp only
          by_cases hin : s ∈ pub.recipients
          · right
            refine ⟨.event i n (some (Broker.detailsSpec x.bh p u)) a k, ?_, rfl, ?_⟩
            · exact messagesFor_in _ hnd hin
            · refine ⟨q, o, u, rfl, ?_⟩
              obtain ⟨-, i', n', d', t', -, hcur, hcov⟩ := hC71 hin
              obtain ⟨e, he, q', o', q'', r, rfl⟩ := Broker.current_mem hcur
              refine ⟨q', o', t', hs.bh _ he _ _ rfl, ?_⟩
              rcases hcov with h | ⟨h, -⟩ | ⟨h, -⟩
              · exact .inl h
              · exact .inr (.inl h)
              · exact .inr (.inr h)
          · left
            exact messagesFor_out _ hin
      · rw [hack]
        by_cases hf : o.flag (str "acknowledge") = true
        · rw [if_pos hf]
          simp only [messagesFor_one]
          by_cases hps : p = s
          · rw [if_pos hps]
            exact .inr ⟨_, rfl, rfl, hps, o, u, a, k, rfl, hf⟩
          · rw [if_neg hps]; exact .inl rfl
        · rw [if_neg hf]; exact .inl rfl
  case subscribe q o t =>
    refine ⟨[], messagesFor s (brokerOut _), rfl, .inl rfl, ?_⟩
    rcases subscribed_of (w := w) (b := x.broker) (s := p) (q := q) (o := o) (t := t) with he | ⟨i, he⟩
    · rw [he]; exact .inl rfl
    · rw [he, brokerOut, messagesFor_one]
      split
      · rename_i e; exact .inr ⟨_, rfl, rfl, e, o, t, rfl⟩
      · exact .inl rfl
  case unsubscribe q g =>
    refine ⟨[], messagesFor s (brokerOut _), rfl, .inl rfl, ?_⟩
    have : (Broker.step w x.broker (.receive p (.unsubscribe q g))).2 = .err ∨
        (Broker.step w x.broker (.receive p (.unsubscribe q g))).2 = .panic ∨
        (Broker.step w x.broker (.receive p (.unsubscribe q g))).2 = .ok (.msg (.unsubscribed q) p) := by
      simp only [Broker.step, Broker.receive, Broker.unsubscribe]
      repeat' (first | exact .inl rfl | exact .inr (.inl rfl) | exact .inr (.inr rfl) | split)
    rcases this with he | he | he
    · rw [he]; exact .inl rfl
    · rw [he]; exact .inl rfl
    · rw [he, brokerOut, messagesFor_one]
      split
      · rename_i e; exact .inr ⟨_, rfl, rfl, e, g, rfl⟩
      · exact .inl rfl

/-- A message for the dealer leads to at most one message for `s`. -/
theorem dealer_caused {x : Sys} (hx : Reach w x) (hlen : x.dh.length < 2 ^ 53) (s p : Nat) (m : Msg) (wo : List Str) (rnd : Nat) :
    messagesFor s (dealerOut (Dealer.step w x.dealer (.receive p m wo rnd)).2) = [] ∨
    ∃ e, messagesFor s (dealerOut (Dealer.step w x.dealer (.receive p m wo rnd)).2) = [e] ∧ isEvent e = false ∧ Caused w x.sent s p m e := by
  have hh := (reach_hist hx).2
  have hs := reach_sent hx
  have hR := Dealer.hist_rinv hh (Nat.le_of_lt hlen)
  simp only [Dealer.step]
  cases hr : (Dealer.receive w x.dealer p m wo rnd).2 with
  | err => exact .inl rfl
  | panic => exact .inl rfl
  | ok v =>
    obtain ⟨out, to⟩ := v
    simp only [Res.map_ok, dealerOut, messagesFor_one]
    by_cases hto : ¬to = s
    · rw [if_neg hto]; exact .inl rfl
    replace hto := Decidable.not_not.1 hto
    rw [if_pos hto]
    subst hto
    refine .inr ⟨out, rfl, ?_⟩
    cases m <;> simp only [Dealer.receive, reduceCtorEq] at hr
    case call r o pr a k bin =>
      rcases Dealer.call_cases w x.dealer p r o pr a k bin wo rnd with ⟨-, e⟩ | ⟨e, -⟩ | ⟨y, callee, nc, inv, hl, -, hp, -, ⟨-, e⟩ | ⟨c, -, -, e⟩⟩ <;>
        rw [e] at hr <;> cases hr
      · exact ⟨rfl, .inl ⟨rfl, o, pr, a, k, bin, rfl⟩⟩
      · -- the callee has registered a procedure that covers the one called
        have hcov : ∃ r' o' t', .register r' o' t' ∈ x.sent to ∧ covers w t' pr := by
          have hmem := Dealer.pick_mem hp
          have hlt : y < x.dealer.next ∧ covers w (x.dealer.heap y).procedure pr := by
            rcases Dealer.lookup_cases hl with h | ⟨t, ht, h, -⟩ | ⟨t, ht, h⟩
            · exact ⟨(hR.byp _ _ h).1, .inl (hR.byp _ _ h).2⟩
            · exact ⟨(hR.trp _ _ h).1, .inr (.inl ((hR.trp _ _ h).2 ▸ ht))⟩
            · exact ⟨(hR.wcp _ _ h).1, .inr (.inr ((hR.wcp _ _ h).2 ▸ ht))⟩
          obtain ⟨e', he', q, o', od, rn, q', s', rfl⟩ := hR.cal y hlt.1 to hmem
          exact ⟨q, o', _, hs.dh _ he' _ _ _ _ rfl, hlt.2⟩
        simp only [Dealer.invocationFor]
        split
        · rename_i hb
          simp only [Bool.and_eq_true] at hb
          refine ⟨rfl, r, o, pr, a, k, bin, rfl, .inr ⟨hb.1, rfl, rfl, ?_⟩, hcov⟩
          rw [← hb.1]
        · exact ⟨rfl, r, o, pr, a, k, bin, rfl, .inl ⟨rfl, rfl, rfl⟩, hcov⟩
    case yield i o a k bin =>
      rcases Dealer.yield_cases x.dealer i o a k bin with ⟨-, e⟩ | ⟨pd, hp, -, ⟨-, e⟩ | ⟨c, -, e⟩⟩
      · rw [e] at hr; cases hr
      · rw [e] at hr; cases hr
      · rw [e] at hr
        simp only [Res.ok.injEq, Prod.mk.injEq] at hr
        obtain ⟨rfl, rfl⟩ := hr
        have hcall : hasCalled x.sent pd.callerID pd.requestID := by
          obtain ⟨-, -, -, ⟨e', he', o', ⟨pr, a, k, bin, order, rnd, hop⟩, -⟩, -⟩ := (Dealer.hist_cinv hh (Nat.le_of_lt hlen)).pen i pd hp
          exact ⟨o', pr, a, k, bin, hs.dh e' he' _ _ _ _ hop⟩
        obtain ⟨d', a', k', bin', e1, h1, h2, h3⟩ := Dealer.resultFor_shape pd.requestID (pd.receiveProgress && o.flag Dealer.optProgress) a k bin c
        rw [e1]
        refine ⟨rfl, ⟨i, o, a, k, bin, rfl, ?_, ?_⟩, hcall⟩
        · cases hb : (bin.binary && c.static) with
          | true =>
            obtain ⟨rfl, rfl, rfl⟩ := h2 hb
            rw [Bool.and_eq_true] at hb
            exact .inr ⟨hb.1, rfl, rfl, by rw [← hb.1]⟩
          | false =>
            obtain ⟨rfl, rfl, rfl⟩ := h3 hb
            exact .inl ⟨rfl, rfl, rfl⟩
        · intro hf
          rw [h1, Bool.and_eq_true] at hf
          exact hf.2
    case register r o p' =>
      rcases Dealer.register_cases x.dealer p r o p' with ⟨-, e⟩ | ⟨_, -, ⟨_, -, -, e⟩ | ⟨_, -, -, e⟩ | ⟨-, e⟩⟩ <;> rw [e] at hr <;> cases hr
      · exact ⟨rfl, rfl, o, p', rfl⟩
      · exact ⟨rfl, rfl, o, p', rfl⟩
      · exact ⟨rfl, rfl, o, p', rfl⟩
    case unregister r i =>
      rcases Dealer.unregister_cases x.dealer p r i with e | e | ⟨_, _, -, -, e, -⟩ <;> rw [e] at hr <;> cases hr
      exact ⟨rfl, rfl, i, rfl⟩
    case error t r d u a k =>
      rcases Dealer.error_cases x.dealer t r d u a k with ⟨-, e⟩ | ⟨rfl, pd, hp, e⟩
      · rw [e] at hr; cases hr
      · rw [e] at hr
        simp only [Res.ok.injEq, Prod.mk.injEq] at hr
        obtain ⟨rfl, rfl⟩ := hr
        have hcall : hasCalled x.sent pd.callerID pd.requestID := by
          obtain ⟨-, -, -, ⟨e', he', o', ⟨pr, a, k, bin, order, rnd, hop⟩, -⟩, -⟩ := (Dealer.hist_cinv hh (Nat.le_of_lt hlen)).pen r pd hp
          exact ⟨o', pr, a, k, bin, hs.dh e' he' _ _ _ _ hop⟩
        exact ⟨rfl, .inr ⟨⟨r, d, rfl, rfl⟩, hcall⟩⟩

/-! ### The invariant -/

theorem Caused.mono {f g : Nat → List Msg} (hfg : ∀ p, ∀ m ∈ f p, m ∈ g p) {s p : Nat} {m out : Msg} (h : Caused w f s p m out) : Caused w g s p m out := by
  have hc : ∀ {r : Nat}, hasCalled f s r → hasCalled g s r := by
    rintro r ⟨o, t, a, k, b, h⟩; exact ⟨o, t, a, k, b, hfg _ _ h⟩
  unfold Caused at h ⊢
  split at h
  all_goals try exact h
  · obtain ⟨r, o, t, e, r', o', t', h1, h2⟩ := h
    exact ⟨r, o, t, e, r', o', t', hfg _ _ h1, h2⟩
  · obtain ⟨r, o, t, a0, k0, b0, e, hs, r', o', t', h1, h2⟩ := h
    exact ⟨r, o, t, a0, k0, b0, e, hs, r', o', t', hfg _ _ h1, h2⟩
  · exact ⟨h.1, hc h.2⟩
  · rcases h with h | h
    · exact .inl h
    · exact .inr ⟨h.1, hc h.2⟩

/-- `Traced`, with the messages the router has handled. -/
def TracedIn (w : Str → Str → Bool) (sent handled : Nat → List Msg) (s : Nat) (received : List Msg) : Prop :=
  ∃ src : List (Nat × Msg × Msg), src.map (fun q => q.2.2) = received ∧
    (∀ q ∈ src, Caused w sent s q.1 q.2.1 q.2.2) ∧
    ∀ p, ((src.filter fun q => q.1 = p).map fun q => q.2.1).Sublist (handled p)

theorem TracedIn.mono {sent sent' handled handled' : Nat → List Msg} {s : Nat} {received : List Msg}
    (h : TracedIn w sent handled s received) (hs : ∀ p, ∀ m ∈ sent p, m ∈ sent' p) (hh : ∀ p, (handled p).Sublist (handled' p)) :
    TracedIn w sent' handled' s received := by
  obtain ⟨src, h1, h2, h3⟩ := h
  exact ⟨src, h1, fun q hq => (h2 q hq).mono hs, fun p => (h3 p).trans (hh p)⟩

theorem handled_grows (handled : Nat → List Msg) (p : Nat) (m : Msg) (p' : Nat) :
    (handled p').Sublist (upd handled p (handled p ++ [m]) p') := by
  simp only [upd]
  split
  · rename_i e; subst e; exact List.sublist_append_left _ _
  · exact .refl _

theorem TracedIn.extend {sent handled : Nat → List Msg} {s : Nat} {received : List Msg} (h : TracedIn w sent handled s received)
    {p : Nat} {m e : Msg} (hc : Caused w sent s p m e) : TracedIn w sent (upd handled p (handled p ++ [m])) s (received ++ [e]) := by
  obtain ⟨src, h1, h2, h3⟩ := h
  refine ⟨src ++ [(p, m, e)], by simp [h1], ?_, ?_⟩
  · intro q hq
    rcases List.mem_append.1 hq with hq | hq
    · exact h2 q hq
    · rcases List.mem_singleton.1 hq with rfl; exact hc
  · intro p'
    rw [List.filter_append, List.map_append]
    by_cases e' : p' = p
    · subst e'
      simp only [upd_same]
      refine (h3 _).append ?_
      simp
    · rw [upd_other _ _ e']
      have : ¬p = p' := fun h => e' h.symm
      simp [this, h3 p']

theorem handled_out {l l' : Log} {handled : Nat → List Msg} (i1 : ∀ p, l.outbox p = handled p ++ l.sys.up p) {p : Nat} {m : Msg} {rest : List Msg}
    (hu : l.sys.up p = m :: rest) (h1 : l'.sys.up = upd l.sys.up p rest) (h2 : l'.sys.sent = l.sys.sent) :
    ∀ p', l'.outbox p' = upd handled p (handled p ++ [m]) p' ++ l'.sys.up p' := by
  intro p'
  have := i1 p'
  simp only [Log.outbox, h1, h2] at this ⊢
  by_cases e : p' = p
  · subst e
    simp only [upd_same]
    rw [this, hu]; simp
  · rw [upd_other _ _ e, upd_other _ _ e]; exact this

/-- Where everything sent so far comes from. -/
theorem log_traced {l : Log} (h : Log.Reach w l) (hb : l.sys.bh.length ≤ 2 ^ 53) (hd : l.sys.dh.length ≤ 2 ^ 53) :
    ∃ handled : Nat → List Msg, (∀ p, l.outbox p = handled p ++ l.sys.up p) ∧
      ∀ s, TracedIn w l.sys.sent handled s ((l.inbox s).filter isEvent) ∧ TracedIn w l.sys.sent handled s ((l.inbox s).filter fun m => !isEvent m) := by
  induction h with
  | new => exact ⟨fun _ => [], fun _ => rfl, fun s => ⟨⟨[], rfl, by simp, by simp⟩, ⟨[], rfl, by simp, by simp⟩⟩⟩
  | act a hl ha ih =>
    rename_i l l'
    have hg : l.sys.bh.length ≤ l'.sys.bh.length ∧ l.sys.dh.length ≤ l'.sys.dh.length := by
      obtain ⟨y, h1, h2⟩ := Option.map_eq_some_iff.1 ha
      have := change_grows (act_change h1)
      subst h2
      exact ⟨this.1, this.2.1⟩
    obtain ⟨handled, i1, i2⟩ := ih (by omega) (by omega)
    cases log_moves ha with
    | quiet h1 h2 h3 => exact ⟨handled, by simpa only [Log.outbox, h1, h2] using i1, by simpa only [h2, h3] using i2⟩
    | send p m h1 h2 h3 =>
      refine ⟨handled, ?_, fun s => ?_⟩
      · intro p'
        simp only [Log.outbox, h1, h2]
        by_cases e : p' = p
        · subst e
          simp only [upd_same, List.reverse_cons]
          rw [← List.append_assoc, ← i1]; rfl
        · rw [upd_other _ _ e, upd_other _ _ e]; exact i1 p'
      · have hm : ∀ p', ∀ m' ∈ l.sys.sent p', m' ∈ l'.sys.sent p' := by
          intro p' m' hm'
          rw [h2]; simp only [upd]
          split
          · rename_i e; subst e; exact .tail _ hm'
          · exact hm'
        rw [h3]
        exact ⟨(i2 s).1.mono hm fun _ => .refl _, (i2 s).2.mono hm fun _ => .refl _⟩
    | ignore p m rest hu h1 h2 h3 =>
      refine ⟨upd handled p (handled p ++ [m]), ?_, fun s => ?_⟩
      · exact handled_out i1 hu h1 h2
      · rw [h3, h2]
        exact ⟨(i2 s).1.mono (fun _ _ h => h) (handled_grows handled p m), (i2 s).2.mono (fun _ _ h => h) (handled_grows handled p m)⟩
    | broker p m rest wo so op hu h1 h2 hc h3 h4 _ =>
      refine ⟨upd handled p (handled p ++ [m]), handled_out i1 hu h1 h2, fun s => ?_⟩
      obtain ⟨ev, other, e, hev, hot⟩ := broker_caused (log_sys hl) (by rw [h4] at hb; simp only [List.length_cons] at hb; omega) s p m wo so op hc
      rw [h3, h2, e, List.filter_append, List.filter_append, List.filter_append, List.filter_append]
      constructor
      · have : other.filter isEvent = [] := by
          rcases hot with rfl | ⟨e, rfl, he, -⟩
          · rfl
          · simp [he]
        rw [this, List.append_nil]
        rcases hev with rfl | ⟨e, rfl, he, hca⟩
        · simpa using (i2 s).1.mono (fun _ _ h => h) (handled_grows handled p m)
        · simpa [he] using (i2 s).1.extend hca
      · have : ev.filter (fun m => !isEvent m) = [] := by
          rcases hev with rfl | ⟨e, rfl, he, -⟩
          · rfl
          · simp [he]
        rw [this, List.nil_append]
        rcases hot with rfl | ⟨e, rfl, he, hca⟩
        · simpa using (i2 s).2.mono (fun _ _ h => h) (handled_grows handled p m)
        · simpa [he] using (i2 s).2.extend hca
    | dealer p m rest wo rnd hu h1 h2 hm h3 h4 =>
      refine ⟨upd handled p (handled p ++ [m]), handled_out i1 hu h1 h2, fun s => ?_⟩
      rw [h3, h2, List.filter_append, List.filter_append]
      rcases dealer_caused (log_sys hl) (by rw [h4] at hd; simp only [List.length_cons] at hd; omega) s p m wo rnd with e | ⟨e', e, he, hca⟩
      · rw [e]
        exact ⟨by simpa using (i2 s).1.mono (fun _ _ h => h) (handled_grows handled p m),
          by simpa using (i2 s).2.mono (fun _ _ h => h) (handled_grows handled p m)⟩
      · rw [e]
        exact ⟨by simpa [he] using (i2 s).1.mono (fun _ _ h => h) (handled_grows handled p m), by simpa [he] using (i2 s).2.extend hca⟩

/-- A sequence of actions, oldest first. -/
def Log.run (w : Str → Str → Bool) : Log → List Action → Option Log
  | l, [] => some l
  | l, a :: as => (l.act w a).bind fun l' => l'.run w as

theorem log_run {l l' : Log} (h : Log.Reach w l) : ∀ as, l.run w as = some l' → Log.Reach w l' := by
  intro as
  induction as generalizing l with
  | nil => intro e; cases e; exact h
  | cons a as ih =>
    intro e
    obtain ⟨y, h1, h2⟩ := Option.bind_eq_some_iff.1 e
    exact ih (h.act a h1) h2

/-- The log after these actions. -/
def logged (as : List Action) : Log := (Log.new.run Dealer.noWild as).getD Log.new

theorem reach_logged (as : List Action) : Log.Reach Dealer.noWild (logged as) := by
  unfold logged
  cases h : Log.new.run Dealer.noWild as with
  | none => exact .new
  | some y => exact log_run .new as h

/-- Code and first number of a message. -/
def glance : Msg → Nat × Nat
  | .event _ n _ _ _ => (36, n)
  | .subscribed r _ => (33, r)
  | .published r _ => (17, r)
  | .registered r _ => (65, r)
  | .invocation r _ _ _ _ _ => (68, r)
  | .result r _ _ _ _ => (50, r)
  | .error _ r _ _ _ _ => (8, r)
  | .publish r _ _ _ _ => (16, r)
  | .call r _ _ _ _ _ => (48, r)
  | _ => (0, 0)

/-! ### C105 -/

/-- **C105** The EVENTs a client gets come from PUBLISHes: each from one PUBLISH of its own, with its args and kwargs, for a topic the client
has asked for by a SUBSCRIBE; those from the same publisher in the order in which it sent the PUBLISHes. -/
theorem C105_events {l : Log} (h : Log.Reach w l) (hb : l.sys.bh.length ≤ 2 ^ 53) (hd : l.sys.dh.length ≤ 2 ^ 53) (s : Nat) :
    Traced w l s ((l.inbox s).filter isEvent) := by
  obtain ⟨handled, h1, h2⟩ := log_traced h hb hd
  exact (h2 s).1.mono (fun _ _ h => h) fun p => by rw [h1]; exact List.sublist_append_left _ _

/-- Client 3 subscribes, clients 1 and 2 publish; 3 has taken SUBSCRIBED and the first two EVENTs, and two more are under way. -/
def news : List Action :=
  three ++ does 3 (.subscribe 1 none (str "t")) ++ [.deliver 3] ++
  [.send 1 [] (.publish 1 none (str "t") none none), .send 1 [] (.publish 2 none (str "t") none none),
   .send 2 [] (.publish 7 none (str "t") none none), .route 1 [] [] 0, .route 2 [] [] 0, .deliver 3, .deliver 3, .route 1 [] [] 0,
   .send 2 [] (.publish 8 none (str "t") none none), .route 2 [] [] 0]

example : ((logged news).got 3).map glance = [(33, 1), (36, 2), (36, 3)] ∧ ((logged news).sys.down 3).map glance = [(36, 4), (36, 5)] ∧
    (logged news).sys.bh.length ≤ 2 ^ 53 ∧ (logged news).sys.dh.length ≤ 2 ^ 53 ∧
    ((logged news).outbox 1).map glance = [(16, 1), (16, 2)] ∧ ((logged news).outbox 2).map glance = [(16, 7), (16, 8)] := by decide +kernel

/-! ### C106 -/

/-- **C106** All other messages a client gets come from messages sent to the router: each from one of its own, of the kind and with the
content that `Caused` says; those from the same sender in the order in which it sent them. -/
theorem C106_answers {l : Log} (h : Log.Reach w l) (hb : l.sys.bh.length ≤ 2 ^ 53) (hd : l.sys.dh.length ≤ 2 ^ 53) (s : Nat) :
    Traced w l s ((l.inbox s).filter fun m => !isEvent m) := by
  obtain ⟨handled, h1, h2⟩ := log_traced h hb hd
  exact (h2 s).2.mono (fun _ _ h => h) fun p => by rw [h1]; exact List.sublist_append_left _ _

/-- Client 2 registers, client 1 calls, and once more a procedure that nobody offers; client 2 yields. -/
def calls : List Action :=
  three ++ does 2 (.register 1 none (str "p")) ++ [.deliver 2] ++ does 1 (.call 7 none (str "p") none none Bin.none) ++ [.deliver 2] ++
  does 1 (.call 8 none (str "q") none none Bin.none) ++ does 2 (.yield 2 none none none Bin.none) ++ [.deliver 1]

example : ((logged calls).got 1).map glance = [(8, 8)] ∧ ((logged calls).sys.down 1).map glance = [(50, 7)] ∧
    ((logged calls).got 2).map glance = [(65, 1), (68, 2)] ∧
    (logged calls).sys.bh.length ≤ 2 ^ 53 ∧ (logged calls).sys.dh.length ≤ 2 ^ 53 ∧ ((logged calls).outbox 1).map glance = [(48, 7), (48, 8)] := by
  decide +kernel

/-! ### C107 -/

/-- The EVENTs among the messages for all clients after a message for the broker: copies of one, with the next publication ID. -/
theorem broker_events {x : Sys} (hx : Reach w x) (hlen : x.bh.length < 2 ^ 53) (p : Nat) (m : Msg) (wo : List Str) (so : List Nat) (op : Broker.Op)
    (hc : callB p m wo so = some op) :
    (∀ s, (messagesFor s (brokerOut (Broker.step w x.broker op).2)).filter isEvent = []) ∨
    (∃ i d a k, (Broker.step w x.broker op).1.idGen = x.broker.idGen + 1 ∧
      ∀ s, (messagesFor s (brokerOut (Broker.step w x.broker op).2)).filter isEvent = [] ∨
        (messagesFor s (brokerOut (Broker.step w x.broker op).2)).filter isEvent = [.event i (x.broker.idGen + 1) d a k]) := by
  have hh := (reach_hist hx).1
  cases m <;> simp only [callB, reduceCtorEq, Option.some.injEq] at hc <;> subst hc
  case publish q o u a k =>
    rcases Broker.publish_result hh hlen p q o u a k wo so with ⟨-, he, -⟩ | ⟨-, pub, hpub, n, hn, hst, hack, hev⟩
    · exact .inl fun s => by simp [Broker.step, he, brokerOut, messagesFor]
    · have hstep : (Broker.step w x.broker (.publish p q o u a k wo so)).2 = .ok (.pub pub) := by simp only [Broker.step, hpub, Res.map_ok]
      have hA : ∀ s, (messagesFor s (match pub.ack with | some (m, s) => [(s, m)] | none => [])).filter isEvent = [] := by
        intro s
        rw [hack]
        split
        · rename_i h
          split at h
          · cases h
            rw [messagesFor_one]
            split <;> rfl
          · cases h
        · rfl
      rcases hev with ⟨e1, -, -⟩ | ⟨t, i, -, e1, hnd, -⟩
      · left
        intro s
        have := hA s
        rw [hstep, messagesFor_pub, List.filter_append, e1]
        exact this
      · right
        refine ⟨i, some (Broker.detailsSpec x.bh p u), a, k, ?_, fun s => ?_⟩
        · simp only [Broker.step, hst, hn]
        · have := hA s
          rw [hstep, messagesFor_pub, List.filter_append, e1, ← hn]
          by_cases hin : s ∈ pub.recipients
          · right
            show List.filter isEvent (messagesFor s (pub.recipients.map fun s => (s, _))) ++ List.filter isEvent (messagesFor s _) = _
            rw [messagesFor_in _ hnd hin]
            exact congrArg ([Msg.event i n (some (Broker.detailsSpec x.bh p u)) a k] ++ ·) this
          · left
            show List.filter isEvent (messagesFor s (pub.recipients.map fun s => (s, _))) ++ List.filter isEvent (messagesFor s _) = _
            rw [messagesFor_out _ hin]
            exact this
  case subscribe q o t =>
    left
    intro s
    obtain ⟨ev, other, e, h1, h2⟩ := broker_caused hx hlen s p (.subscribe q o t) wo so (.receive p (.subscribe q o t)) rfl
    rw [e, List.filter_append]
    have h3 : ev = [] := by
      rcases h1 with h1 | ⟨e', -, he, hca⟩
      · exact h1
      · cases e' <;> simp only [isEvent, reduceCtorEq] at he
        obtain ⟨_, _, _, hm, -⟩ := hca
        cases hm
    rcases h2 with rfl | ⟨e', rfl, he, -⟩
    · simp [h3]
    · simp [h3, he]
  case unsubscribe q g =>
    left
    intro s
    obtain ⟨ev, other, e, h1, h2⟩ := broker_caused hx hlen s p (.unsubscribe q g) wo so (.receive p (.unsubscribe q g)) rfl
    rw [e, List.filter_append]
    have h3 : ev = [] := by
      rcases h1 with h1 | ⟨e', -, he, hca⟩
      · exact h1
      · cases e' <;> simp only [isEvent, reduceCtorEq] at he
        obtain ⟨_, _, _, hm, -⟩ := hca
        cases hm
    rcases h2 with rfl | ⟨e', rfl, he, -⟩
    · simp [h3]
    · simp [h3, he]

/-- The publication IDs of the EVENTs in a list. -/
def publications (l : List Msg) : List Nat :=
  l.filterMap fun | .event _ n _ _ _ => some n | _ => none

theorem publications_append (l l' : List Msg) : publications (l ++ l') = publications l ++ publications l' := List.filterMap_append

/-- **C107** All EVENTs have one order, that of their publication IDs, and every client gets those for it in this order, each once: two clients
that get the same EVENTs get them in the same order. -/
theorem C107_total_order {l : Log} (h : Log.Reach w l) (hb : l.sys.bh.length ≤ 2 ^ 53) :
    ∃ events : List Msg, (publications events).Pairwise (· < ·) ∧ (∀ e ∈ events, isEvent e = true) ∧
      ∀ s, ((l.inbox s).filter isEvent).Sublist events := by
  suffices ∃ events : List Msg, ((publications events).Pairwise (· < ·) ∧ (∀ e ∈ events, isEvent e = true) ∧
      ∀ s, ((l.inbox s).filter isEvent).Sublist events) ∧ ∀ n ∈ publications events, n ≤ l.sys.broker.idGen by
    obtain ⟨ev, h, -⟩ := this; exact ⟨ev, h⟩
  induction h with
  | new => exact ⟨[], ⟨.nil, by simp, fun s => .refl _⟩, by simp [publications]⟩
  | act a hl ha ih =>
    rename_i l l'
    have hg : l.sys.bh.length ≤ l'.sys.bh.length ∧ l.sys.broker.idGen ≤ l'.sys.broker.idGen := by
      obtain ⟨y, h1, h2⟩ := Option.map_eq_some_iff.1 ha
      subst h2
      refine ⟨(change_grows (act_change h1)).1, ?_⟩
      simp only at hb ⊢
      cases act_change h1 with
      | admin bop dop j _ _ _ => exact Broker.idGen_mono (reach_hist (log_sys hl)).1 (by simp only [List.length_cons] at hb; exact hb) bop
      | broker s m rest wo so op _ _ => exact Broker.idGen_mono (reach_hist (log_sys hl)).1 (by simp only [List.length_cons] at hb; exact hb) op
      | _ => exact Nat.le_refl _
    obtain ⟨events, ⟨i1, i2, i3⟩, i4⟩ := ih (by omega)
    have i4' : ∀ n ∈ publications events, n ≤ l'.sys.broker.idGen := fun n hn => Nat.le_trans (i4 n hn) hg.2
    cases log_moves ha with
    | quiet h1 h2 h3 => exact ⟨events, ⟨i1, i2, fun s => by rw [h3]; exact i3 s⟩, i4'⟩
    | send p m h1 h2 h3 => exact ⟨events, ⟨i1, i2, fun s => by rw [h3]; exact i3 s⟩, i4'⟩
    | ignore p m rest hu h1 h2 h3 => exact ⟨events, ⟨i1, i2, fun s => by rw [h3]; exact i3 s⟩, i4'⟩
    | dealer p m rest wo rnd hu h1 h2 hm h3 h4 =>
      refine ⟨events, ⟨i1, i2, fun s => ?_⟩, i4'⟩
      have : (messagesFor s (dealerOut (Dealer.step w l.sys.dealer (.receive p m wo rnd)).2)).filter isEvent = [] := by
        rw [List.filter_eq_nil_iff]
        intro e he
        simp only [messagesFor, List.mem_map, List.mem_filter] at he
        obtain ⟨q, ⟨hq, -⟩, rfl⟩ := he
        have := dealerOut_from (w := w) l.sys.dealer p m wo rnd q hq
        cases hm' : q.2 <;> rw [hm'] at this <;> simp only [fromDealer] at this <;> simp [isEvent]
      rw [h3, List.filter_append, this, List.append_nil]
      exact i3 s
    | broker p m rest wo so op hu h1 h2 hc h3 h4 h5 =>
      rcases broker_events (log_sys hl) (by rw [h4] at hb; simp only [List.length_cons] at hb; omega) p m wo so op hc with he | ⟨i, d, a, k, hn, he⟩
      · exact ⟨events, ⟨i1, i2, fun s => by rw [h3, List.filter_append, he, List.append_nil]; exact i3 s⟩, i4'⟩
      · refine ⟨events ++ [.event i (l.sys.broker.idGen + 1) d a k], ⟨?_, ?_, fun s => ?_⟩, ?_⟩
        · rw [publications_append, List.pairwise_append]
          refine ⟨i1, by simp [publications], ?_⟩
          intro n hn' n' hn''
          simp [publications] at hn''
          have := i4 n hn'
          omega
        · intro e he
          rcases List.mem_append.1 he with he | he
          · exact i2 e he
          · rcases List.mem_singleton.1 he with rfl; rfl
        · rw [h3, List.filter_append]
          rcases he s with he | he <;> rw [he]
          · rw [List.append_nil]; exact (i3 s).trans (List.sublist_append_left _ _)
          · exact (i3 s).append (.refl _)
        · intro n hn'
          rw [publications_append] at hn'
          rcases List.mem_append.1 hn' with hn' | hn'
          · exact i4' n hn'
          · simp [publications] at hn'
            rw [h5, hn, hn']; exact Nat.le_refl _

/-- Two clients with the same subscription, and a third with another, all of which get some EVENTs. -/
def papers : List Action :=
  three ++ does 3 (.subscribe 1 none (str "t")) ++ does 2 (.subscribe 1 none (str "t")) ++ does 1 (.subscribe 1 none (str "u")) ++
  does 1 (.publish 2 none (str "t") none none) ++ does 2 (.publish 2 none (str "u") none none) ++ does 2 (.publish 3 none (str "t") none none) ++
  [.deliver 3, .deliver 3]

example : publications ((logged papers).inbox 3) = [3, 5] ∧ publications ((logged papers).inbox 2) = [3, 5] ∧
    publications ((logged papers).inbox 1) = [4] ∧ (logged papers).sys.bh.length ≤ 2 ^ 53 := by decide +kernel

end Wamp.System
