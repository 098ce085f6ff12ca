import Verif.Spec.Site
import Verif.Props.Acceptor
import Verif.Props.Complete
import Verif.Props.NetDelivery
/-!
# C119: who published and who called
-/
namespace Wamp.System
open Wamp.Session

variable {w : Str → Str → Bool}

theorem hist_suffixB {h : List Broker.Event} {b : Broker.State} (hh : Broker.Hist w h b) {e : Broker.Event} (he : e ∈ h) :
    ∃ l h' b', h = l ++ h' ∧ Broker.Hist w h' b' ∧ (h.length ≤ 2 ^ 53 → h'.length < 2 ^ 53) ∧ e = ⟨e.op, (Broker.step w b' e.op).2⟩ := by
  induction hh with
  | new => cases he
  | @step h b op hh ih =>
    rcases List.mem_cons.1 he with rfl | he
    · exact ⟨[_], _, _, rfl, hh, by simp only [List.length_cons]; omega, rfl⟩
    · obtain ⟨l, h', b', e1, h1, h2, h3⟩ := ih he
      exact ⟨_ :: l, h', b', by rw [e1]; rfl, h1, fun h => h2 (by simp only [List.length_cons] at h; omega), h3⟩

theorem hist_suffixD {h : List Dealer.Event} {b : Dealer.State} (hh : Dealer.Hist w h b) {e : Dealer.Event} (he : e ∈ h) :
    ∃ l h' b', h = l ++ h' ∧ Dealer.Hist w h' b' ∧ e = ⟨e.op, (Dealer.step w b' e.op).2⟩ := by
  induction hh with
  | new => cases he
  | @step h b op hh hnp ih =>
    rcases List.mem_cons.1 he with rfl | he
    · exact ⟨[_], _, _, rfl, hh, rfl⟩
    · obtain ⟨l, h', b', e1, h1, h3⟩ := ih he
      exact ⟨_ :: l, h', b', by rw [e1]; rfl, h1, h3⟩

theorem session_addedB {h : List Broker.Event} {s : Nat} {d : SessionDetails} (hs : Broker.session h s = some d) :
    d.id = s ∧ ∃ e ∈ h, e.op = .add d := by
  fun_induction Broker.session h s with
  | case1 => cases hs
  | case2 d' r h => cases hs; exact ⟨rfl, _, .head _, rfl⟩
  | case3 s d' r h e ih => obtain ⟨h1, e', h2, h3⟩ := ih hs; exact ⟨h1, e', .tail _ h2, h3⟩
  | case4 => cases hs
  | case5 s d' r h e ih1 ih => obtain ⟨h1, e', h2, h3⟩ := ih hs; exact ⟨h1, e', .tail _ h2, h3⟩
  | case6 s e h _ _ ih => obtain ⟨h1, e', h2, h3⟩ := ih hs; exact ⟨h1, e', .tail _ h2, h3⟩

theorem session_addedD {h : List Dealer.Event} {s : Nat} {d : SessionDetails} (hs : Dealer.session h s = some d) :
    d.id = s ∧ ∃ e ∈ h, e.op = .add d := by
  fun_induction Dealer.session h s with
  | case1 => cases hs
  | case2 d' r h => cases hs; exact ⟨rfl, _, .head _, rfl⟩
  | case3 s d' r h e ih => obtain ⟨h1, e', h2, h3⟩ := ih hs; exact ⟨h1, e', .tail _ h2, h3⟩
  | case4 => cases hs
  | case5 s d' r h e ih1 ih => obtain ⟨h1, e', h2, h3⟩ := ih hs; exact ⟨h1, e', .tail _ h2, h3⟩
  | case6 s e h _ _ ih => obtain ⟨h1, e', h2, h3⟩ := ih hs; exact ⟨h1, e', .tail _ h2, h3⟩

/-- What the broker was told to publish was sent by the client. -/
theorem reach_published {x : Sys} (h : Reach w x) :
    ∀ e ∈ x.bh, ∀ p q o t a k wo so, e.op = .publish p q o t a k wo so → .publish q o t a k ∈ x.sent p := by
  induction h with
  | new => simp [Sys.new]
  | act a hx ha ih =>
    have hs := reach_sent hx
    cases act_change ha with
    | admin bop dop j h1 h2 h3 =>
      intro e he p q o t a k wo so hop
      rcases List.mem_cons.1 he with rfl | he
      · simp only at hop; subst hop; exact h1.elim
      · exact ih e he p q o t a k wo so hop
    | send s data m c b h1 =>
      intro e he p q o t a k wo so hop
      have := ih e he p q o t a k wo so hop
      simp only [upd]
      split
      · rename_i e; subst e; exact .tail _ this
      · exact this
    | deliver s m rest h1 => exact ih
    | broker s m rest wo so op h1 h2 =>
      intro e he p q o t a k wo so hop
      rcases List.mem_cons.1 he with rfl | he
      · simp only at hop
        subst hop
        cases m <;> simp only [callB, reduceCtorEq, Option.some.injEq, Broker.Op.publish.injEq] at h2
        obtain ⟨rfl, rfl, rfl, rfl, rfl, rfl, -⟩ := h2
        exact hs.up _ _ (by rw [h1]; exact .head _)
      · exact ih e he p q o t a k wo so hop
    | dealer s m rest wo rnd h1 h2 h3 => exact ih
    | ignore s m rest h1 => exact ih

/-- Details of an EVENT from `p` that say who published it, as the broker was told when the session joined; or no details. -/
def publishedBy (h : List Broker.Event) (p : Nat) (t : Str) (d : GoMap) : Prop :=
  d = some [] ∨ ∃ cd : SessionDetails, cd.id = p ∧ (∃ e ∈ h, e.op = .add cd) ∧
    d = some [(str "publisher", .u64 p), (str "publisher_authid", .str cd.authID), (str "publisher_authrole", .str cd.authRole),
      (str "topic", .str t)]

theorem event_from {l : Log} (h : Log.Reach w l) (hb : l.sys.bh.length ≤ 2 ^ 53) {s i n : Nat} {d : GoMap} {a : GoSlice} {k : GoMap}
    (hm : .event i n d a k ∈ l.inbox s) : ∃ p q o t, .publish q o t a k ∈ l.sys.sent p ∧ publishedBy l.sys.bh p t d := by
  have hr := log_sys h
  rcases (log_out h).src s _ hm with ⟨e, he, hq⟩ | ⟨e, he, hq⟩
  · obtain ⟨l1, h', b', e1, hh, hlen, e2⟩ := hist_suffixB (reach_hist hr).1 he
    have hl := hlen hb
    rw [e2] at hq
    simp only at hq
    cases hop : e.op with
    | publish p q o u a0 k0 wo so =>
      have hsent := reach_published hr e he _ _ _ _ _ _ _ _ hop
      rw [hop] at hq
      rcases Broker.publish_result hh hl p q o u a0 k0 wo so with ⟨-, he', -⟩ | ⟨-, pub, hpub, n', -, -, hack, hev⟩
      · simp [Broker.step, he', brokerOut] at hq
      · have hstep : (Broker.step w b' (.publish p q o u a0 k0 wo so)).2 = .ok (.pub pub) := by simp only [Broker.step, hpub, Res.map_ok]
        rw [hstep] at hq
        simp only [brokerOut, List.mem_append] at hq
        rcases hq with hq | hq
        · rcases hev with ⟨e3, -, -⟩ | ⟨t, j, -, e3, -⟩
          · rw [e3] at hq; simp at hq
          · have hq' := hq
            rw [e3] at hq'
            simp only [List.mem_map, Prod.mk.injEq] at hq'
            obtain ⟨s', -, rfl, hq'⟩ := hq'
            simp only [Msg.event.injEq] at hq'
            obtain ⟨rfl, rfl, rfl, rfl, rfl⟩ := hq'
            refine ⟨p, q, o, u, hsent, ?_⟩
            rcases Broker.C80_disclosure hh hl p q o u _ _ wo so pub hstep _ _ _ e3 with ⟨-, hd⟩ | ⟨-, cd, hs, hd⟩
            · exact .inl hd
            · obtain ⟨g1, e', g2, g3⟩ := session_addedB hs
              exact .inr ⟨cd, g1, ⟨e', by rw [e1]; exact List.mem_append.2 (.inr g2), g3⟩, hd⟩
        · rw [hack] at hq
          split at hq
          · rename_i e3
            split at e3
            · cases e3; simp at hq
            · cases e3
          · simp at hq
    | receive p m =>
      rw [hop] at hq
      exfalso
      cases m
      case subscribe q o t =>
        rcases subscribed_of (w := w) (b := b') (s := p) (q := q) (o := o) (t := t) with he' | ⟨i, he'⟩ <;> rw [he'] at hq <;> simp [brokerOut] at hq
      case unsubscribe q g =>
        have : (Broker.step w b' (.receive p (.unsubscribe q g))).2 = .err ∨
            (Broker.step w b' (.receive p (.unsubscribe q g))).2 = .panic ∨
            (Broker.step w b' (.receive p (.unsubscribe q g))).2 = .ok (.msg (.unsubscribed q) p) := by
          simp only [Broker.step, Broker.receive, Broker.unsubscribe]
          repeat' (first | exact .inl rfl | exact .inr (.inl rfl) | exact .inr (.inr rfl) | split)
        rcases this with he' | he' | he' <;> rw [he'] at hq <;> simp [brokerOut] at hq
      all_goals simp [Broker.step, Broker.receive, brokerOut, Res.map] at hq
    | add d' => rw [hop, admin_outB (op := .add d') _ trivial] at hq; cases hq
    | remove s' o => rw [hop, admin_outB (op := .remove s' o) _ trivial] at hq; cases hq
    | disclose on => rw [hop, admin_outB (op := .disclose on) _ trivial] at hq; cases hq
    | has t => rw [hop] at hq; cases hq
  · exfalso
    obtain ⟨l1, h', b', e1, hh, e2⟩ := hist_suffixD (reach_hist hr).2 he
    rw [e2] at hq
    exact (fromDealerB (m := .event i n d a k) trivial (dealer_from _ _ hq)).elim

/-- Details of an INVOCATION for a CALL of `p` that say who called, as the dealer was told when the session joined; or no such details. -/
def calledBy (h : List Dealer.Event) (p : Nat) (t : Str) (d : GoMap) : Prop :=
  (d.get (str "procedure") = none ∧ d.get (str "caller") = none ∧ d.get (str "caller_authid") = none ∧ d.get (str "caller_authrole") = none) ∨
  ∃ cd : SessionDetails, cd.id = p ∧ (∃ e ∈ h, e.op = .add cd) ∧ d.get (str "procedure") = some (.str t) ∧ d.get (str "caller") = some (.u64 p) ∧
    d.get (str "caller_authid") = some (.str cd.authID) ∧ d.get (str "caller_authrole") = some (.str cd.authRole)

theorem invocation_from {l : Log} (h : Log.Reach w l) (hb : l.sys.bh.length ≤ 2 ^ 53) {s i g : Nat} {d : GoMap} {a : GoSlice} {k : GoMap} {bin : Bin}
    (hm : .invocation i g d a k bin ∈ l.inbox s) :
    ∃ p r o t a0 k0 bin0, .call r o t a0 k0 bin0 ∈ l.sys.sent p ∧ (bin0.binary = false → a = a0 ∧ k = k0 ∧ bin = Bin.none) ∧
      calledBy l.sys.dh p t d := by
  have hr := log_sys h
  obtain ⟨e, he, h1, -⟩ := inbox_dealer h hb hm trivial
  obtain ⟨l1, h', b', e1, hh, e2⟩ := hist_suffixD (reach_hist hr).2 he
  have h2 : (Dealer.step w b' e.op).2 = .ok (.msg (.invocation i g d a k bin) s) := by rw [e2] at h1; exact h1
  obtain ⟨p, m, wo, rnd, h3, -, h4⟩ := dealer_answer h2
  obtain ⟨r, o, t, a0, k0, bin0, rfl⟩ := h4 _ _ _ _ _ _ rfl
  have hsent := (reach_sent hr).dh e he _ _ _ _ h3
  rw [h3] at h2
  refine ⟨p, r, o, t, a0, k0, bin0, hsent, (Dealer.C66_payload_partial hh _ _ _ _ _ _ _ _ _ _ _ _ _ _ _ _ h2).1, ?_⟩
  obtain ⟨h5, h6, -⟩ := Dealer.C65_disclosure hh _ _ _ _ _ _ _ _ _ _ _ _ _ _ _ _ h2
  cases hd : Dealer.disclosed h' with
  | false => exact .inl (h5 hd)
  | true =>
    obtain ⟨cd, hs, g1, g2, g3, g4⟩ := h6 hd
    obtain ⟨f1, e', f2, f3⟩ := session_addedD hs
    exact .inr ⟨cd, f1, ⟨e', by rw [e1]; exact List.mem_append.2 (.inr f2), f3⟩, g1, g2, g3, g4⟩

end Wamp.System

namespace Wamp.Site
open Wamp Wamp.System Wamp.Net Wamp.Spec

variable {cr : Crypto} {static : Nat → Bool} {w : Str → Str → Bool} {k : Nat → Net.Kind}

/-- Every state of a router with its logins in which session `s` uses serializer `k s`. -/
abbrev Run (cr : Crypto) (static : Nat → Bool) (w : Str → Str → Bool) (k : Nat → Net.Kind) (x : Site) : Prop :=
  Reach cr static w (fun s => (k s).codec) (fun s => (k s).Fit) x

/-- What is added to the histories of broker and dealer is not a new session, if no session joins; and only joined sessions send. -/
def Adds (x y : Sys) : Prop :=
  (∀ e ∈ y.bh, ∀ d, e.op = .add d → e ∈ x.bh) ∧ (∀ e ∈ y.dh, ∀ d, e.op = .add d → e ∈ x.dh) ∧
  ∀ s, ∀ m ∈ y.sent s, m ∈ x.sent s ∨ s ∈ x.joined

theorem act_adds {x y : Sys} {a : Action} (h : x.act w a = some y) (hj : y.joined = x.joined) : Adds x y := by
  have keep : ∀ {z : Sys} (b : Broker.Event) (e : Dealer.Event), z.bh = b :: x.bh → z.dh = e :: x.dh → z.sent = x.sent → adminB b.op → adminD e.op →
      (∀ d, b.op ≠ .add d) → (∀ d, e.op ≠ .add d) → Adds x z := by
    intro z b e h1 h2 h3 _ _ h4 h5
    refine ⟨fun e' he' d hd => ?_, fun e' he' d hd => ?_, fun s m hm => .inl (h3 ▸ hm)⟩
    · rw [h1] at he'
      rcases List.mem_cons.1 he' with rfl | he'
      · exact absurd hd (h4 d)
      · exact he'
    · rw [h2] at he'
      rcases List.mem_cons.1 he' with rfl | he'
      · exact absurd hd (h5 d)
      · exact he'
  cases a with
  | join d =>
    simp only [Sys.act] at h
    split at h
    · cases h
    · obtain ⟨h1, rfl⟩ := onDealer_some h
      have := congrArg List.length hj
      simp [Sys.onBroker] at this
  | leave s o o' =>
    simp only [Sys.act] at h
    obtain ⟨h1, rfl⟩ := onDealer_some h
    exact keep _ _ rfl rfl rfl trivial trivial (by intro d h; cases h) (by intro d h; cases h)
  | disclose p c =>
    simp only [Sys.act] at h
    obtain ⟨h1, rfl⟩ := onDealer_some h
    exact keep _ _ rfl rfl rfl trivial trivial (by intro d h; cases h) (by intro d h; cases h)
  | send s data m =>
    simp only [Sys.act] at h
    split at h
    · split at h
      · rename_i hs
        cases h
        refine ⟨fun e he d _ => he, fun e he d _ => he, fun s' m' hm' => ?_⟩
        simp only [upd] at hm'
        split at hm'
        · rename_i e; exact .inr (e ▸ hs)
        · exact .inl hm'
      · cases h
    · cases h
  | route s wo so rnd =>
    simp only [Sys.act] at h
    split at h
    · cases h
    · rename_i m rest hu
      have key : ((({ x with up := upd x.up s rest } : Sys).onDealer w (.receive s m wo rnd)).map fun y =>
          y.post (dealerOut (Dealer.step w x.dealer (.receive s m wo rnd)).2)) = some y → Adds x y := by
        intro h
        obtain ⟨z, hz, rfl⟩ := Option.map_eq_some_iff.1 h
        obtain ⟨h1, rfl⟩ := onDealer_some hz
        refine ⟨fun e he d _ => he, fun e he d hd => ?_, fun s' m' hm' => .inl hm'⟩
        rcases List.mem_cons.1 he with rfl | he
        · cases hd
        · exact he
      have bkey : ∀ op, (∀ d, op ≠ .add d) → ((({ x with up := upd x.up s rest } : Sys).onBroker w op).post
          (brokerOut (Broker.step w x.broker op).2)) = y → Adds x y := by
        intro op hop e
        subst e
        refine ⟨fun e he d hd => ?_, fun e he d _ => he, fun s' m' hm' => .inl hm'⟩
        rcases List.mem_cons.1 he with rfl | he
        · exact absurd hd (hop d)
        · exact he
      cases m <;> simp only [Sys.handle, Option.some.injEq] at h
      case publish q o t a k => exact bkey _ (by intro d h; cases h) h
      case subscribe q o t => exact bkey _ (by intro d h; cases h) h
      case unsubscribe q g => exact bkey _ (by intro d h; cases h) h
      all_goals first | exact key h | (subst h; exact ⟨fun e he d _ => he, fun e he d _ => he, fun s' m' hm' => .inl hm'⟩)
  | deliver s =>
    simp only [Sys.act] at h
    split at h
    · cases h
    · cases h; exact ⟨fun e he d _ => he, fun e he d _ => he, fun s' m' hm' => .inl hm'⟩

theorem adds_emptied {x y : Sys} {a : Action} (h : x.act w a = some y) (hj : y.joined = x.joined) : Adds x (Net.Sys.emptied y) :=
  let ⟨h1, h2, h3⟩ := act_adds h hj
  ⟨h1, h2, h3⟩

/-- What a step between router and clients adds to the histories is not a new session, if no session joins. -/
theorem step_adds {c : Nat → Codec} {Fit : Nat → Msg → Prop} {n n' : Net} (h : Net.Step w c Fit n n') (hj : n'.core.joined = n.core.joined) :
    Adds n.core n'.core := by
  cases h with
  | admin a ha hy => exact act_adds hy hj
  | send s m b hb hf hy => exact adds_emptied hy hj
  | upArrive s a b hab => exact ⟨fun e he d _ => he, fun e he d _ => he, fun s' m' hm' => .inl hm'⟩
  | downArrive s a b hab => exact ⟨fun e he d _ => he, fun e he d _ => he, fun s' m' hm' => .inl hm'⟩
  | route s wo so rnd p rest m out hr hdes hy hfit hout => exact adds_emptied (x := { n.core with up := upd n.core.up s [m] }) hy hj
  | deliver s p rest m hr hdes hy => exact adds_emptied (x := { n.core with down := upd n.core.down s [m] }) hy hj

/-- What is known about a site. -/
structure SInv (cr : Crypto) (static : Nat → Bool) (w : Str → Str → Bool) (k : Nat → Net.Kind) (x : Site) : Prop where
  run : Net.Run w k x.net
  hist : ∀ l, Acceptor.Hist cr (static l) (x.calls l) (x.acc l)
  bh : ∀ e ∈ x.net.core.bh, ∀ d, e.op = .add d → ∃ l, (d.id, l) ∈ x.entered ∧ (x.acc l).details = some d
  dh : ∀ e ∈ x.net.core.dh, ∀ d, e.op = .add d → ∃ l, (d.id, l) ∈ x.entered ∧ (x.acc l).details = some d
  ids : x.entered.map Prod.fst = x.net.core.joined
  nodup : x.net.core.joined.Nodup
  det : ∀ q ∈ x.entered, ∃ d, d.id = q.1 ∧ (x.acc q.2).details = some d
  sent : ∀ s, ∀ m ∈ x.net.core.sent s, s ∈ x.net.core.joined

/-- Session details are given out by an acceptor that accepts nothing any more. -/
theorem details_final {l : Nat} {h : List Acceptor.Call} {s : Acceptor.State} (hh : Acceptor.Hist cr (static l) h s) {d : SessionDetails}
    (hd : s.details = some d) (env : Acceptor.Env) (m : Msg) : (Acceptor.recv cr env s m).state = s := by
  have hi := Acceptor.hist_inv hh
  unfold Acceptor.Inv at hi
  split at hi
  · rw [hi.1] at hd; cases hd
  · rw [hi.1] at hd; cases hd
  · rename_i hst; simp [Acceptor.recv, hst]

theorem run_inv {x : Site} (h : Run cr static w k x) : SInv cr static w k x := by
  induction h with
  | new => 
    exact ⟨.new, fun _ => .new, by simp [Site.new, Net.new, Sys.new], by simp [Site.new, Net.new, Sys.new], rfl,
      by simp [Site.new, Net.new, Sys.new], by simp [Site.new], by simp [Site.new, Net.new, Sys.new]⟩
  | @step x y hx hs ih =>
    cases hs with
    | login l env m =>
      have keep : ∀ l' d, (x.acc l').details = some d → ((upd x.acc l (Acceptor.recv cr env (x.acc l) m).state) l').details = some d := by
        intro l' d hd
        simp only [upd]
        split
        · rename_i e; subst e; rw [details_final (ih.hist _) hd]; exact hd
        · exact hd
      refine ⟨ih.run, fun l' => ?_, fun e he d hd => ?_, fun e he d hd => ?_, ih.ids, ih.nodup, fun q hq => ?_, ih.sent⟩
      · simp only [upd]
        split
        · rename_i e; subst e; exact (ih.hist _).call env m
        · exact ih.hist l'
      · obtain ⟨l', h1, h2⟩ := ih.bh e he d hd; exact ⟨l', h1, keep _ _ h2⟩
      · obtain ⟨l', h1, h2⟩ := ih.dh e he d hd; exact ⟨l', h1, keep _ _ h2⟩
      · obtain ⟨d, h1, h2⟩ := ih.det q hq; exact ⟨d, h1, keep _ _ h2⟩
    | enter l d hd hy =>
      have hdet : (x.acc l).details = some d := by
        simp only [Acceptor.sessionDetails] at hd
        cases hxd : (x.acc l).details with
        | none => rw [hxd] at hd; cases hd
        | some d' => rw [hxd] at hd; cases hd; rfl
      have hrun := ih.run.step (.admin _ (.inl ⟨d, rfl⟩) hy)
      simp only [Sys.act] at hy
      split at hy
      · cases hy
      rename_i hfresh
      obtain ⟨h1, rfl⟩ := onDealer_some hy
      refine ⟨hrun, ih.hist, fun e he d' hd' => ?_, fun e he d' hd' => ?_, ?_, ?_, fun q hq => ?_, fun s m hm => .tail _ (ih.sent s m hm)⟩
      · rcases List.mem_cons.1 he with rfl | he
        · cases hd'; exact ⟨l, .head _, hdet⟩
        · obtain ⟨l', h1, h2⟩ := ih.bh e he d' hd'; exact ⟨l', .tail _ h1, h2⟩
      · rcases List.mem_cons.1 he with rfl | he
        · cases hd'; exact ⟨l, .head _, hdet⟩
        · obtain ⟨l', h1, h2⟩ := ih.dh e he d' hd'; exact ⟨l', .tail _ h1, h2⟩
      · exact congrArg (d.id :: ·) ih.ids
      · exact List.nodup_cons.2 ⟨hfresh, ih.nodup⟩
      · rcases List.mem_cons.1 hq with rfl | hq
        · exact ⟨d, rfl, hdet⟩
        · exact ih.det q hq
    | run n hn hj =>
      obtain ⟨a1, a2, a3⟩ := step_adds hn hj
      refine ⟨ih.run.step hn, ih.hist, fun e he d hd => ih.bh e (a1 e he d hd) d hd, fun e he d hd => ih.dh e (a2 e he d hd) d hd, ?_, ?_, ih.det, fun s m hm => ?_⟩
      · exact ih.ids.trans hj.symm
      · exact hj ▸ ih.nodup
      · show s ∈ n.core.joined
        rw [hj]
        rcases a3 s m hm with hm | hm
        · exact ih.sent s m hm
        · exact hm

/-- A session that has joined was let in. -/
theorem logged_in {x : Site} (hi : SInv cr static w k x) {p l : Nat} {d : SessionDetails} (he : (p, l) ∈ x.entered)
    (hd : (x.acc l).details = some d) (hid : d.id = p) : LoggedIn x p l d.authID d.authRole := by
  refine ⟨he, ?_⟩
  have hh := hi.hist l
  obtain ⟨h1, h2⟩ := Acceptor.C34_details_agree hh
  have hsd : Acceptor.sessionDetails (x.acc l) = .ok d := by rw [Acceptor.sessionDetails, hd]; rfl
  obtain ⟨wc, hw, m, hout, hk⟩ := h1.1 ⟨d, hsd⟩
  cases m <;> simp only [Msg.kind, reduceCtorEq] at hk
  rename_i id det
  obtain ⟨g1, g2, g3, g4, g5, -⟩ := h2 d hsd wc hw id det hout
  refine ⟨wc, hw, det, by rw [hout, ← g1, hid], g3, g4, ?_⟩
  obtain ⟨later, earlier, e⟩ := List.append_of_mem hw
  rw [e] at hh
  obtain ⟨s', hh'⟩ := Acceptor.hist_append hh
  obtain ⟨la, c, ea, realm, authID, ms, ex, method, e1, -, e3, -, a, ha, req, r, a1, -, a3, d1, d2, d3, d4⟩ := Acceptor.C30_welcome_approved hh' hout
  have hsub : ∀ y ∈ la ++ c :: ea, y ∈ x.calls l := by
    intro y hy
    rw [← e1] at hy
    rw [e]
    exact List.mem_append.2 (.inr hy)
  refine ⟨c, hsub c (by simp), realm, authID, ms, ex, method, e3, d1, d4, a, hsub a ?_, req, r, a1, a3, ?_, ?_⟩
  · rcases List.mem_append.1 ha with ha | ha
    · exact List.mem_append.2 (.inl ha)
    · rcases List.mem_singleton.1 ha with rfl; simp
  · rw [d2] at g3; injection g3 with g3; injection g3
  · rw [d3] at g4; injection g4 with g4; injection g4

theorem one_connection {x : Site} (hi : SInv cr static w k x) {p l l' : Nat} (h : (p, l) ∈ x.entered) (h' : (p, l') ∈ x.entered) : l = l' := by
  have hn := hi.nodup
  rw [← hi.ids] at hn
  revert h h' hn
  generalize x.entered = e
  induction e with
  | nil => intro h; cases h
  | cons q e ih =>
    intro h h' hn
    rw [List.map_cons, List.nodup_cons] at hn
    rcases List.mem_cons.1 h with e1 | h1 <;> rcases List.mem_cons.1 h' with e2 | h2
    · rw [← e1] at e2; cases e2; rfl
    · exact absurd (List.mem_map.2 ⟨(p, l'), h2, by rw [← e1]⟩) hn.1
    · exact absurd (List.mem_map.2 ⟨(p, l), h1, by rw [← e2]⟩) hn.1
    · exact ih h1 h2 hn.2

/-- **C119** Whoever has sent anything was let in: its session joined on one connection, and the acceptor of that connection answered with a
WELCOME for it after the server's authenticator had approved. -/
theorem C119_only_logged_in {x : Site} (h : Run cr static w k x) {p : Nat} {m : Msg} (hm : m ∈ x.net.core.sent p) :
    ∃ l authID authRole, LoggedIn x p l authID authRole ∧ ∀ l', (p, l') ∈ x.entered → l' = l := by
  have hi := run_inv h
  have := hi.sent p m hm
  rw [← hi.ids] at this
  obtain ⟨⟨p', l⟩, hq, rfl⟩ := List.mem_map.1 this
  obtain ⟨d, h1, h2⟩ := hi.det _ hq
  exact ⟨l, d.authID, d.authRole, logged_in hi hq h2 h1, fun l' hl' => one_connection hi hl' hq⟩

theorem norm_str (q : Net.Kind) (s : Str) : q.norm (.str s) = .str s := by
  cases q <;> rfl

theorem norm_number (q : Net.Kind) (n : Nat) : isNumber (some (q.norm (.u64 n))) n := by
  intro h
  cases q with
  | json => exact C15_json_ids n h
  | cbor o ho => exact cbor_ids n
  | msgpack o ho => exact msgpack_ids n

/-- **C119** Every EVENT a client has read comes from a PUBLISH that some session `p` sent; and if it says who published, it says that `p`
did, with the auth ID and role under which the server's authenticator let `p` in (and the topic of the PUBLISH). -/
theorem C119_publisher {x : Site} (h : Run cr static w k x) (hb : x.net.core.bh.length ≤ 2 ^ 53) {s i n : Nat} {d : GoMap} {a : GoSlice} {kw : GoMap}
    (hm : .event i n d a kw ∈ x.net.got s) :
    ∃ p r o t a0 k0, .publish r o t a0 k0 ∈ x.net.core.sent p ∧ carriedOver k p s a0 k0 a kw ∧
      (d = some [] ∨
       ∃ l authID authRole, LoggedIn x p l authID authRole ∧ isNumber (d.get (str "publisher")) p ∧
        d.get (str "publisher_authid") = some (.str authID) ∧ d.get (str "publisher_authrole") = some (.str authRole) ∧
        d.get (str "topic") = some (.str t)) := by
  have hi := run_inv h
  obtain ⟨l, h1, h2, h3⟩ := run_log hi.run
  rw [h3] at hm
  obtain ⟨m, hm, e⟩ := List.mem_map.1 hm
  cases m <;> simp only [received, reduceCtorEq] at e
  obtain ⟨p, q, o, t, hp, hd⟩ := event_from h1 (by rwa [h2.bh]) (List.mem_append.2 (.inl hm))
  rw [h2.sent] at hp
  obtain ⟨m0, hm0, e0⟩ := List.mem_map.1 hp
  cases m0 <;> simp only [received, reduceCtorEq] at e0
  cases e0
  cases e
  refine ⟨p, _, _, _, _, _, hm0, carried_over p s _ _, ?_⟩
  rcases hd with rfl | ⟨cd, hid, ⟨e, he, hop⟩, rfl⟩
  · exact .inl rfl
  · rw [h2.bh] at he
    obtain ⟨c, hc, hcd⟩ := hi.bh e he cd hop
    rw [hid] at hc
    refine .inr ⟨c, cd.authID, cd.authRole, logged_in hi hc hcd hid, ?_, ?_, ?_, ?_⟩
    · rw [get_onMap]; exact norm_number _ _
    all_goals
      rw [get_onMap]
      exact congrArg some (norm_str _ _)

/-- **C119** Every INVOCATION a client has read comes from a CALL that some session `p` sent; and if it says who called, it says that `p` did,
with the auth ID and role under which the server's authenticator let `p` in (and the procedure of the CALL). -/
theorem C119_caller {x : Site} (h : Run cr static w k x) (hb : x.net.core.bh.length ≤ 2 ^ 53) {s i g : Nat} {d : GoMap} {a : GoSlice} {kw : GoMap}
    {bin : Bin} (hm : .invocation i g d a kw bin ∈ x.net.got s) :
    ∃ p r o t a0 k0, .call r o t a0 k0 Bin.none ∈ x.net.core.sent p ∧ carriedOver k p s a0 k0 a kw ∧
      ((d.get (str "procedure") = none ∧ d.get (str "caller") = none ∧ d.get (str "caller_authid") = none ∧ d.get (str "caller_authrole") = none) ∨
       ∃ l authID authRole, LoggedIn x p l authID authRole ∧ isNumber (d.get (str "caller")) p ∧
        d.get (str "caller_authid") = some (.str authID) ∧ d.get (str "caller_authrole") = some (.str authRole) ∧
        d.get (str "procedure") = some (.str t)) := by
  have hi := run_inv h
  obtain ⟨l, h1, h2, h3⟩ := run_log hi.run
  rw [h3] at hm
  obtain ⟨m, hm, e⟩ := List.mem_map.1 hm
  cases m <;> simp only [received, reduceCtorEq] at e
  obtain ⟨p, q, o, t, a0, k0, bin0, hp, hcon, hd⟩ := invocation_from h1 (by rwa [h2.bh]) (List.mem_append.2 (.inl hm))
  rw [h2.sent] at hp
  obtain ⟨m0, hm0, e0⟩ := List.mem_map.1 hp
  cases m0 <;> simp only [received, reduceCtorEq] at e0
  cases e0
  have hbin := (sent_fit hi.run p _ hm0).1.2
  subst hbin
  obtain ⟨rfl, rfl, rfl⟩ := hcon rfl
  cases e
  refine ⟨p, _, _, _, _, _, hm0, carried_over p s _ _, ?_⟩
  rcases hd with ⟨g1, g2, g3, g4⟩ | ⟨cd, hid, ⟨e, he, hop⟩, g1, g2, g3, g4⟩
  · left
    simp only [get_onMap, g1, g2, g3, g4]
    exact ⟨rfl, rfl, rfl, rfl⟩
  · rw [h2.dh] at he
    obtain ⟨c, hc, hcd⟩ := hi.dh e he cd hop
    rw [hid] at hc
    refine .inr ⟨c, cd.authID, cd.authRole, logged_in hi hc hcd hid, ?_⟩
    simp only [get_onMap, g1, g2, g3, g4, Option.map_some, norm_str, and_true]
    exact norm_number _ _

/-- **C119** If `p` was let in by WAMP-CRA, then on its connection a signature was given that is the MAC of the challenge sent there under the
key that belongs to the authenticator's answer, the one with the auth ID and role that `p` has. -/
theorem C119_secret_known {x : Site} (h : Run cr static w k x) {p l : Nat} {authID authRole : Str} (hl : LoggedIn x p l authID authRole)
    (hm : ∃ welcome ∈ x.calls l, ∃ d, welcome.out = .ok (.welcome p d) ∧ d.get (str "authmethod") = some (.named mCRA)) :
    ∃ welcome ∈ x.calls l, ∃ challenge ∈ x.calls l, ∃ sig aex extra ch req r info key, welcome.msg = .authenticate sig aex ∧
      challenge.out = .ok (.challenge mCRA extra) ∧ extra.get (str "challenge") = some (.str ch) ∧ challenge.approved req r ∧
      r.authID = authID ∧ r.authRole = authRole ∧ r.cra = some info ∧ craKey cr info = .ok key ∧ b64Decode sig = some (cr.hmac key ch) := by
  have hi := run_inv h
  obtain ⟨wc, hw, d, hout, hmeth⟩ := hm
  obtain ⟨-, wc', hw', d', hout', g3, g4, -⟩ := hl
  have hh := hi.hist l
  have hsame : wc' = wc ∧ d' = d := by
    obtain ⟨q1, q2, e⟩ := List.append_of_mem hw
    rw [e] at hh hw'
    obtain ⟨f1, f2, -⟩ := Acceptor.C33_nothing_after_welcome hh ⟨_, hout, rfl⟩
    have : wc' = wc := by
      rcases List.mem_append.1 hw' with hw' | hw'
      · have := f1 wc' hw'; rw [hout'] at this; cases this
      · rcases List.mem_cons.1 hw' with h | hw'
        · exact h
        · exact absurd ⟨_, hout', rfl⟩ (f2 wc' hw')
    subst this
    rw [hout] at hout'
    cases hout'
    exact ⟨rfl, rfl⟩
  obtain ⟨rfl, rfl⟩ := hsame
  obtain ⟨later, earlier, e⟩ := List.append_of_mem hw
  rw [e] at hh
  obtain ⟨s', hh'⟩ := Acceptor.hist_append hh
  obtain ⟨sig, aex, la, c, ea, extra, ch, req, r, info, key, e1, e2, -, e4, e5, e6, e7, e8, e9, e10, e11⟩ := Acceptor.C31_cra_binding hh' hout hmeth
  refine ⟨wc', hw, c, ?_, sig, aex, extra, ch, req, r, info, key, e1, e4, e5, e6, ?_, ?_, e7, e8, e9⟩
  · rw [e, e2]; simp
  · rw [e10] at g3; injection g3 with g3; injection g3
  · rw [e11] at g4; injection g4 with g4; injection g4

/-! ### A run that meets the hypotheses -/

/-- Steps of a site, for examples. -/
inductive SCmd where
  | login (l : Nat) (env : Acceptor.Env) (m : Msg)
  | enter (l : Nat)
  | disclose (p c : Bool)
  | net (c : Net.Cmd)

/-- Do it, if it is possible. -/
def exec (cr : Crypto) (w : Str → Str → Bool) (k : Nat → Net.Kind) (x : Site) : SCmd → Option Site
  | .login l env m => some { x with acc := upd x.acc l (Acceptor.recv cr env (x.acc l) m).state,
                                    calls := upd x.calls l (Acceptor.callOf cr env (x.acc l) m :: x.calls l) }
  | .enter l =>
    match Acceptor.sessionDetails (x.acc l) with
    | .ok d => (x.net.core.act w (.join d)).map fun y => { x with net := { x.net with core := y }, entered := (d.id, l) :: x.entered }
    | _ => none
  | .disclose p c => (x.net.core.act w (.disclose p c)).bind fun y => if y.joined = x.net.core.joined then some { x with net := { x.net with core := y } } else none
  | .net c => (Net.exec w k x.net c).bind fun n => if n.core.joined = x.net.core.joined then some { x with net := n } else none

theorem exec_run {x y : Site} (h : Run cr static w k x) (c : SCmd) (hc : exec cr w k x c = some y) : Run cr static w k y := by
  refine h.step ?_
  cases c with
  | login l env m => cases hc; exact .login l env m
  | enter l =>
    simp only [exec] at hc
    split at hc
    · rename_i d hd
      obtain ⟨z, e1, rfl⟩ := Option.map_eq_some_iff.1 hc
      exact .enter l d hd e1
    · cases hc
  | disclose p c =>
    simp only [exec] at hc
    obtain ⟨z, e1, e2⟩ := Option.bind_eq_some_iff.1 hc
    split at e2
    · rename_i hj
      cases e2
      exact .run _ (.admin _ (.inr (.inr ⟨p, c, rfl⟩)) e1) hj
    · cases e2
  | net c =>
    simp only [exec] at hc
    obtain ⟨z, e1, e2⟩ := Option.bind_eq_some_iff.1 hc
    split at e2
    · rename_i hj
      cases e2
      exact .run _ (Net.exec_step (run_inv h).run c e1) hj
    · cases e2

/-- All of them. -/
def execAll (cr : Crypto) (w : Str → Str → Bool) (k : Nat → Net.Kind) : Site → List SCmd → Option Site
  | x, [] => some x
  | x, c :: cs => (exec cr w k x c).bind fun y => execAll cr w k y cs

theorem execAll_run {x y : Site} (h : Run cr static w k x) (cs : List SCmd) (hc : execAll cr w k x cs = some y) : Run cr static w k y := by
  induction cs generalizing x with
  | nil => cases hc; exact h
  | cons c cs ih =>
    obtain ⟨z, h1, h2⟩ := Option.bind_eq_some_iff.1 hc
    exact ih (exec_run h c h1) h2

/-- The site after these steps. -/
def grown (cs : List SCmd) : Site := (execAll Acceptor.Demo.cr Dealer.noWild mixed (Site.new fun _ => false) cs).getD (Site.new fun _ => false)

theorem run_grown (cs : List SCmd) : Run Acceptor.Demo.cr (fun _ => false) Dealer.noWild mixed (grown cs) := by
  unfold grown
  cases h : execAll Acceptor.Demo.cr Dealer.noWild mixed (Site.new fun _ => false) cs with
  | none => exact .new
  | some y => exact execAll_run .new cs h

/-- An authenticator that lets `name` in, as session `id`. -/
def lets (id : Nat) (name : String) : Acceptor.Env :=
  ⟨[mCRA, mAnonymous], fun _ => .ok ⟨str name, str "user", some ⟨str "s3", str "salt", 10, 16⟩⟩, id, some (str "ch"), none⟩

/-- Ann logs in by WAMP-CRA on connection 7 as session 1, Bob without a secret on connection 8 as session 2; both are known to each other.
Ann subscribes and registers, Bob publishes and calls. -/
def visit : List SCmd :=
  [.login 7 (lets 1 "ann") (Acceptor.Demo.hello mCRA none), .login 7 (lets 1 "ann") (.authenticate (Acceptor.Demo.craSig (str "ch")) none),
   .enter 7, .login 8 (lets 2 "bob") (Acceptor.Demo.hello mAnonymous none), .enter 8, .disclose true true] ++
  (sends 1 (newSubscribe 1 none (str "t")) ++ sends 1 (newRegister 2 none (str "p")) ++ sends 2 (newPublish 7 none (str "t") none none) ++
   sends 2 (newCall 9 none (str "p") none none) ++ [Net.Cmd.down 1 1000, .deliver 1, .deliver 1, .deliver 1, .deliver 1]).map .net

/-- Auth ID and role in a message's details. -/
def named : Msg → Option Val × Option Val
  | .event _ _ d _ _ => (d.get (str "publisher_authid"), d.get (str "publisher_authrole"))
  | .invocation _ _ d _ _ _ => (d.get (str "caller_authid"), d.get (str "caller_authrole"))
  | _ => (none, none)

/-- The same as strings. -/
def namedStr (m : Msg) : Option Str × Option Str := ((named m).1.bind Val.asStr?, (named m).2.bind Val.asStr?)

/-- A WELCOME by WAMP-CRA. -/
def craWelcome (c : Acceptor.Call) : Bool :=
  match c.out with
  | .ok (.welcome 1 d) => (match d.get (str "authmethod") with | some (.named m) => m == mCRA | _ => false)
  | _ => false

set_option maxRecDepth 20000 in
example : ((grown visit).net.got 1).map System.glance = [(33, 1), (65, 2), (36, 2), (68, 2)] ∧
    ((grown visit).net.got 1).map namedStr = [(none, none), (none, none), (some (str "bob"), some (str "user")), (some (str "bob"), some (str "user"))] ∧
    (grown visit).entered = [(2, 8), (1, 7)] ∧ (grown visit).net.core.bh.length ≤ 2 ^ 53 ∧
    ((grown visit).calls 7).map craWelcome = [true, false] := by decide +kernel

end Wamp.Site
