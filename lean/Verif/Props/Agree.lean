import Verif.Spec.Agree
import Verif.Props.Quiet
/-!
# C115–C117: client and router agree on subscriptions; requests are settled once; UNSUBSCRIBE and UNREGISTER are answered
-/
namespace Wamp.System
open Wamp.Session

variable {w : Str → Str → Bool}

/-! ### C115 -/

/-- The client's table of subscriptions is not changed by other messages. -/
theorem next_subs {T : Session.State} {m : Msg} (h1 : ∀ r i, m ≠ .subscribed r i) (h2 : ∀ r, m ≠ .unsubscribed r) (k : Nat) :
    next T m .subscriptions k = T .subscriptions k := by
  cases m <;> simp only [next, recv, Prog.run] <;> try rfl
  case result r d _ _ _ =>
    cases T .call r <;> simp only [Prog.run]
    split <;> rfl
  case registered r g => cases T .register r <;> rfl
  case unregistered r =>
    cases T .unregister r <;> simp only [Prog.run]
    rename_i g
    cases T .registrations g <;> rfl
  case invocation r g _ _ _ _ => cases T .registrations g <;> rfl
  case published r n => cases T .publish r <;> rfl
  case subscribed r i => exact absurd rfl (h1 r i)
  case unsubscribed r => exact absurd rfl (h2 r)
  case event g _ _ _ _ => cases T .subscriptions g <;> rfl
  case error t r _ _ _ _ =>
    cases ht : errorTab t with
    | none => rfl
    | some tab =>
      have : tab ≠ .subscriptions := by
        rintro rfl
        simp only [errorTab] at ht
        split at ht <;> cases ht
      simp only [Prog.run]
      cases T tab r <;> simp [Prog.run, State.put, Ne.symm this]

theorem after_subs {q : List Msg} (hq : ∀ m ∈ q, (∀ r i, m ≠ .subscribed r i) ∧ ∀ r, m ≠ .unsubscribed r) (T : Session.State) (k : Nat) :
    after T q .subscriptions k = T .subscriptions k := by
  induction q generalizing T with
  | nil => rfl
  | cons m q ih =>
    obtain ⟨h1, h2⟩ := hq m (.head _)
    rw [after, ih (fun m' hm' => hq m' (.tail _ hm')), next_subs h1 h2]

/-- Sending does not change what the table of subscriptions will be. -/
theorem send_subs {s : Nat} {bh : List Broker.Event} {st c : Session.State} {up down sent : List Msg} {data b : Str} {m : Msg}
    (h : BI s bh st up down sent) (hs : (send (.ok data) m).run st = (c, .ok b)) (hf : (reqs (m :: sent)).Nodup) (k : Nat) :
    after c down .subscriptions k = after st down .subscriptions k := by
  have hnew : ∀ k, request m = some k → k ∉ reqs sent := by
    intro k hk
    rw [reqs_cons, hk] at hf
    exact (List.nodup_cons.1 hf).1
  rcases send_effect hs with ⟨t, r, v, n, e1, e2, e3, e4, e5, e6⟩ | ⟨e1, e2⟩
  · have hX : ∀ t' k', (t' = t ∧ k' = r) → ∃ n, kind t' = some n ∧ ∀ m ∈ down, fromBroker m → answers m ≠ some (n, k') := by
      rintro _ _ ⟨rfl, rfl⟩
      exact ⟨n, e2, fun m' hm' hb hk => hnew _ e1 (h.ans m' hm' hb _ hk)⟩
    obtain ⟨k1, -⟩ := after_sameB (st := st) (st1 := c) (X := fun t' k' => t' = t ∧ k' = r) h.fr hX (fun t' k' _ hx => (e4 t' k' hx).symm)
    exact (k1 .subscriptions k trivial (by rintro ⟨rfl, -⟩; cases e2)).symm
  · obtain ⟨k1, -⟩ := after_sameB (st := st) (st1 := c) (X := fun _ _ => False) h.fr (by simp)
      (fun t' k' ht _ => (e2 t' k' (by rintro rfl; exact ht)).symm)
    exact (k1 .subscriptions k trivial (by simp)).symm

/-- What a PUBLISH makes the router send. -/
theorem publish_sends {h : List Broker.Event} {b : Broker.State} (hh : Broker.Hist w h b) (hlen : h.length < 2 ^ 53) {p q : Nat} {o : GoMap} {t : Str}
    {a : GoSlice} {k : GoMap} {wo : List Str} {so : List Nat} {s : Nat} {m : Msg}
    (hm : (s, m) ∈ brokerOut (Broker.step w b (.publish p q o t a k wo so)).2) :
    (∀ r i, m ≠ .subscribed r i) ∧ ∀ r, m ≠ .unsubscribed r := by
  rcases Broker.publish_result hh hlen p q o t a k wo so with ⟨-, e, -⟩ | ⟨-, pub, e, n, -, -, e2, e3⟩
  · simp [Broker.step, e, brokerOut] at hm
  · simp only [Broker.step, e, Res.map_ok, brokerOut] at hm
    rcases List.mem_append.1 hm with hm | hm
    · rcases e3 with ⟨e3, -⟩ | ⟨t', i, -, e3, -⟩
      · rw [e3] at hm; cases hm
      · rw [e3] at hm
        obtain ⟨_, -, e⟩ := List.mem_map.1 hm
        cases e
        exact ⟨fun _ _ => by nofun, fun _ => by nofun⟩
    · rw [e2] at hm
      by_cases ho : o.flag (str "acknowledge") = true
      · rw [if_pos ho] at hm
        simp at hm
        rw [hm.2]
        exact ⟨fun _ _ => by nofun, fun _ => by nofun⟩
      · rw [if_neg ho] at hm
        cases hm

/-- What the client has or will have in its table of subscriptions is current at the broker. -/
theorem reach_agree {x : Sys} (h : Reach w x) (s : Nat) (hlen : x.bh.length ≤ 2 ^ 53) (hf : Fresh x s) (hs : Stays x s) :
    ∀ i, (after (x.client s) (x.down s) .subscriptions i).isSome = true → ∃ t, Broker.current x.bh s t = some i := by
  induction h with
  | new => intro i hi; cases hi
  | @act x y a hx ha ih =>
    have hc := act_change ha
    have hl0 := Nat.le_trans (change_grows hc).1 hlen
    have ih := ih hl0 (hf.back hc) (Stays.back hc hs)
    have hbi := reach_bi hx s hl0 (hf.back hc)
    obtain ⟨hbh, hdh⟩ := reach_hist hx
    intro i hi
    cases hc with
    | admin bop dop j h1 h2 h3 =>
      obtain ⟨t, ht⟩ := ih i hi
      refine ⟨t, current_same ht ?_ ?_ (fun o => hs.1 _ (.head _) o)⟩
      · rintro j ⟨_, _, _, _, e⟩
        injection e with e
        subst e
        exact h1.elim
      · intro q e
        subst e
        exact h1.elim
    | send s' data m c b h1 =>
      simp only [upd] at hi
      split at hi
      · rename_i e
        subst e
        refine ih i ?_
        rw [send_subs hbi h1 (by simpa only [Fresh, upd_same] using hf)] at hi
        exact hi
      · exact ih i hi
    | deliver s' m rest h1 =>
      simp only [upd] at hi
      split at hi
      · rename_i e
        subst e
        refine ih i ?_
        rw [h1]
        exact hi
      · exact ih i hi
    | dealer s' m rest wo rnd h1 h2 h3 =>
      refine ih i ?_
      simp only at hi
      rw [after_append, after_subs] at hi
      · exact hi
      · intro m' hm'
        simp only [messagesFor, List.mem_map, List.mem_filter] at hm'
        obtain ⟨p, ⟨hp, -⟩, rfl⟩ := hm'
        have := dealerOut_from _ _ _ _ _ p hp
        exact ⟨fun r i e => by rw [e] at this; exact this, fun r e => by rw [e] at this; exact this⟩
    | ignore s' m rest h1 => exact ih i hi
    | broker s' m rest wo so op h1 h2 =>
      have hlt : x.bh.length < 2 ^ 53 := hlen
      simp only at hi
      cases m <;> simp only [callB, Option.some.injEq, reduceCtorEq] at h2 <;> subst h2
      case subscribe q o t =>
        rcases subscribed_of (w := w) (b := x.broker) (s := s') (q := q) (o := o) (t := t) with e | ⟨i', e⟩
        · simp only [e, brokerOut, messagesFor_nil, List.append_nil] at hi ⊢
          exact ih i hi
        · simp only [e, brokerOut, messagesFor_one] at hi ⊢
          by_cases hss : s = s'
          · subst hss
            simp only [if_true, after_append, after] at hi
            have hv := hbi.sub q o t (by rw [h1]; exact .head _)
            obtain ⟨v, hv⟩ := Option.isSome_iff_exists.1 hv
            simp only [next, recv, Prog.run, hv, State.put, if_true] at hi
            by_cases hii : i = i'
            · subst hii
              exact ⟨t, by simp [Broker.current]⟩
            · rw [FMap.set_other _ _ (by simpa using hii)] at hi
              obtain ⟨t', ht'⟩ := ih i hi
              refine ⟨t', ?_⟩
              have hne : t ≠ t' := by
                rintro rfl
                have hA := reach_att hx hl0
                obtain ⟨j, e', hj⟩ := Broker.subscribe_result (w := w) (Broker.hist_inv hbh hl0) s q o t
                  (hA.jb s (hA.sj s (List.ne_nil_of_mem ((reach_sent hx).up s _ (by rw [h1]; exact .head _)))) (Stays.back (act_change ha) hs))
                rw [e] at e'
                cases e'
                exact hii (hj s i ht').symm
              simpa [Broker.current, hne] using ht'
          · simp only [if_neg (Ne.symm hss), List.append_nil] at hi
            obtain ⟨t', ht'⟩ := ih i hi
            exact ⟨t', by simpa [Broker.current, Ne.symm hss] using ht'⟩
      case unsubscribe q g =>
        rcases Broker.C78_unsubscribe hbh hlt s' q g with ⟨⟨t, ht⟩, e⟩ | ⟨-, e⟩
        · simp only [e, brokerOut, messagesFor_one] at hi ⊢
          by_cases hss : s = s'
          · subst hss
            simp only [if_true, after_append, after] at hi
            have hv := hbi.uns q g (by rw [h1]; exact .head _)
            obtain ⟨v, hg⟩ := Option.isSome_iff_exists.1 (hbi.subs t g ht)
            simp only [next, recv, Prog.run, hv, hg, State.put, if_true] at hi
            rw [FMap.del_apply] at hi
            split at hi
            · cases hi
            · rename_i hig
              obtain ⟨t', ht'⟩ := ih i hi
              refine ⟨t', ?_⟩
              simp only [Broker.current, true_and]
              rw [if_neg (by rw [ht']; simpa using hig)]
              exact ht'
          · simp only [if_neg (Ne.symm hss), List.append_nil] at hi
            obtain ⟨t', ht'⟩ := ih i hi
            exact ⟨t', by simpa [Broker.current, Ne.symm hss] using ht'⟩
        · simp only [e, brokerOut, messagesFor_nil, List.append_nil] at hi ⊢
          exact ih i hi
      case publish q o t a k =>
        refine ih i ?_
        rw [after_append, after_subs] at hi
        · exact hi
        · intro m' hm'
          have hm' := mem_messagesFor.1 hm'
          exact publish_sends hbh hlt hm'

/-- **C115** Client and router agree: unless the client was removed or has used a request ID twice, it would accept an EVENT for a subscription, once it
has worked off what is under way to it, exactly if it is subscribed at the broker. -/
theorem C115_subscriptions_agree {x : Sys} (h : Reach w x) (hlen : x.bh.length ≤ 2 ^ 53) (s : Nat) (hf : Fresh x s) (hs : Stays x s)
    (hd : x.down s = []) (i n : Nat) (d : GoMap) (a : GoSlice) (k : GoMap) :
    Accepts (x.client s) (.event i n d a k) ↔ ∃ t, Broker.current x.bh s t = some i := by
  have h1 := reach_agree h s hlen hf hs i
  have h2 := (reach_bi h s hlen hf).subs
  rw [hd] at h1 h2
  simp only [after] at h1 h2
  have h3 : Accepts (x.client s) (.event i n d a k) ↔ (x.client s .subscriptions i).isSome = true := by
    simp only [Accepts, recv, Prog.run]
    cases x.client s .subscriptions i <;> simp [Prog.run]
  rw [h3]
  exact ⟨h1, fun ⟨t, ht⟩ => h2 t i ht⟩

/-- Client 1 subscribes, unsubscribes and subscribes again, while 2 is subscribed and publishes. -/
def comeAndGo : List Action :=
  three ++ does 1 (.subscribe 1 none (str "t")) ++ does 2 (.subscribe 1 none (str "t")) ++ [.deliver 1] ++ does 1 (.unsubscribe 2 1) ++
  does 1 (.subscribe 3 none (str "t")) ++ [.deliver 1, .deliver 1] ++ does 2 (.publish 2 none (str "t") none none)

example : Reach Dealer.noWild (logged (comeAndGo ++ [.deliver 1])).sys ∧ (logged (comeAndGo ++ [.deliver 1])).sys.bh.length ≤ 2 ^ 53 ∧
    Fresh (logged (comeAndGo ++ [.deliver 1])).sys 1 ∧ Stays (logged (comeAndGo ++ [.deliver 1])).sys 1 ∧
    (logged (comeAndGo ++ [.deliver 1])).sys.down 1 = [] ∧
    Broker.current (logged (comeAndGo ++ [.deliver 1])).sys.bh 1 (str "t") = some 1 ∧
    Accepts ((logged (comeAndGo ++ [.deliver 1])).sys.client 1) (.event 1 9 none none none) :=
  ⟨log_sys (reach_logged _), by decide +kernel, by unfold Fresh; decide +kernel, stays_of (by decide +kernel), rfl, by decide +kernel, rfl⟩

/-! ### C116 -/

theorem settles_answers {m : Msg} {k : Nat × Nat} (h : settles m = some k) : answers m = some k := by
  cases m <;> simp only [settles] at h <;> try exact h
  split at h
  · cases h
  · exact h

/-- What is settled is neither under way to the router nor waiting for an answer there, and nothing that answers it follows. -/
structure Once (s : Nat) (b : Dealer.State) (up sent inbox : List Msg) : Prop where
  last : inbox.Pairwise fun m m' => ∀ k, settles m = some k → answers m' ≠ some k
  up : ∀ m ∈ inbox, ∀ k, settles m = some k → k ∉ reqs up
  sent : ∀ m ∈ inbox, ∀ k, answers m = some k → k ∈ reqs sent
  pend : ∀ i p, b.pending.get i = some p → p.callerID = s → ∀ m ∈ inbox, settles m ≠ some (48, p.requestID)

section
variable {s : Nat} {b b' : Dealer.State} {up sent inbox new : List Msg}

theorem Once.pending (h : Once s b up sent inbox) (hp : ∀ i p, b'.pending.get i = some p → p.callerID = s → b.pending.get i = some p) :
    Once s b' up sent inbox :=
  ⟨h.last, h.up, h.sent, fun i p h1 h2 => h.pend i p (hp i p h1 h2) h2⟩

/-- Messages that answer nothing. -/
theorem Once.other (h : Once s b up sent inbox) (hn : ∀ m ∈ new, answers m = none) : Once s b up sent (inbox ++ new) := by
  have hs : ∀ m ∈ new, settles m = none := fun m hm => by
    cases e : settles m with
    | none => rfl
    | some k => rw [← settles_answers e]; exact hn m hm
  refine ⟨List.pairwise_append.2 ⟨h.last, List.pairwise_of_forall_mem_list fun m hm m' _ k hk => ?_, fun m _ m' hm' k _ => ?_⟩,
    fun m hm k hk => ?_, fun m hm k hk => ?_, fun i p h1 h2 m hm => ?_⟩
  · rw [hs m hm] at hk; cases hk
  · rw [hn m' hm']; nofun
  · rcases List.mem_append.1 hm with hm | hm
    · exact h.up m hm k hk
    · rw [hs m hm] at hk; cases hk
  · rcases List.mem_append.1 hm with hm | hm
    · exact h.sent m hm k hk
    · rw [hn m hm] at hk; cases hk
  · rcases List.mem_append.1 hm with hm | hm
    · exact h.pend i p h1 h2 m hm
    · rw [hs m hm]; nofun

theorem Once.take {m : Msg} (h : Once s b (m :: up) sent inbox) : Once s b up sent inbox :=
  ⟨h.last, fun m' hm' k hk hu => h.up m' hm' k hk (List.Sublist.subset (List.Sublist.filterMap _ (List.sublist_cons_self ..)) hu), h.sent, h.pend⟩

/-- One message that answers a request. -/
theorem Once.one {m : Msg} {k : Nat × Nat} (h : Once s b up sent inbox) (hm : answers m = some k) (h1 : ∀ m ∈ inbox, settles m ≠ some k)
    (h2 : k ∈ reqs sent) (h3 : settles m = some k → k ∉ reqs up ∧ ∀ i p, b.pending.get i = some p → p.callerID = s → k ≠ (48, p.requestID)) :
    Once s b up sent (inbox ++ [m]) := by
  refine ⟨List.pairwise_append.2 ⟨h.last, List.pairwise_singleton .., fun m0 hm0 m' hm' k' hk' => ?_⟩,
    fun m' hm' k' hk' => ?_, fun m' hm' k' hk' => ?_, fun i p hp hc m' hm' => ?_⟩
  · simp only [List.mem_singleton] at hm'
    subst hm'
    rw [hm]
    rintro ⟨⟩
    exact h1 m0 hm0 hk'
  · rcases List.mem_append.1 hm' with hm' | hm'
    · exact h.up m' hm' k' hk'
    · simp only [List.mem_singleton] at hm'
      subst hm'
      have := settles_answers hk'
      rw [hm] at this
      cases this
      exact (h3 hk').1
  · rcases List.mem_append.1 hm' with hm' | hm'
    · exact h.sent m' hm' k' hk'
    · simp only [List.mem_singleton] at hm'
      subst hm'
      rw [hm] at hk'
      cases hk'
      exact h2
  · rcases List.mem_append.1 hm' with hm' | hm'
    · exact h.pend i p hp hc m' hm'
    · simp only [List.mem_singleton] at hm'
      subst hm'
      intro e
      have := settles_answers e
      rw [hm] at this
      cases this
      exact (h3 e).2 i p hp hc rfl

/-- The answer to the request at the head of the link. -/
theorem Once.answer {m m' : Msg} {k : Nat × Nat} (h : Once s b (m :: up) sent inbox) (hq : QI (m :: up) [] sent) (hk : request m = some k)
    (hm : answers m' = some k) (hp : ∀ i p, b.pending.get i = some p → p.callerID = s → k ≠ (48, p.requestID)) :
    Once s b up sent (inbox ++ [m']) := by
  have hmem : k ∈ reqs (m :: up) := mem_reqs (.head _) hk
  refine h.take.one hm (fun m0 hm0 e => h.up m0 hm0 k e hmem) (hq.used k hmem) fun _ => ⟨fun hu => ?_, hp⟩
  obtain ⟨m0, hm0, e⟩ := List.mem_filterMap.1 hu
  exact hq.head_only hk hm0 e

/-- The dealer handles a message. -/
theorem Once.dealer {T : Session.State} {p : Nat} {m : Msg} {up' : List Msg} {out : List (Nat × Msg)} (h : Once s b up sent inbox)
    (hst : DStep b p m b' out) (hq : QI up [] sent) (hd : DI s b T up sent) (h1 : s = p → up = m :: up') (h2 : s ≠ p → up' = up) :
    Once s b' up' sent (inbox ++ messagesFor s out) := by
  have ht : Once s b up' sent inbox := by
    by_cases hs : s = p
    · rw [h1 hs] at h; exact h.take
    · rw [h2 hs]; exact h
  have hsub : ∀ k, k ∉ reqs up → k ∉ reqs up' := by
    intro k hk hu
    by_cases hs : s = p
    · rw [h1 hs] at hk
      exact hk (List.Sublist.subset (List.Sublist.filterMap _ (List.sublist_cons_self ..)) hu)
    · rw [h2 hs] at hu; exact hk hu
  have hnil : Once s b up' sent (inbox ++ messagesFor s []) := by simpa [messagesFor] using ht
  have hinv : ∀ {out : List (Nat × Msg)}, (out = [] ∨ ∃ j g d a' k' bin' c, out = [(c, .invocation j g d a' k' bin')]) →
      ∀ m ∈ messagesFor s out, answers m = none := by
    rintro out (rfl | ⟨j, g, d, a', k', bin', c, rfl⟩) m hm
    · cases hm
    · simp only [messagesFor_one] at hm
      split at hm
      · simp only [List.mem_singleton] at hm; subst hm; rfl
      · cases hm
  have hsame : b'.pending = b.pending → ∀ {x}, Once s b up' sent x → Once s b' up' sent x :=
    fun e _ h => h.pending fun i p hp _ => by rwa [e] at hp
  have own : ∀ {k m'}, request m = some k → answers m' = some k → (∀ i p, b.pending.get i = some p → p.callerID = s → k ≠ (48, p.requestID)) →
      Once s b up' sent (inbox ++ messagesFor s [(p, m')]) := by
    intro k m' hk hm hp
    rw [messagesFor_one]
    by_cases hs : s = p
    · rw [if_pos hs.symm]
      rw [h1 hs] at h hq
      exact h.answer hq hk hm hp
    · rw [if_neg (Ne.symm hs), List.append_nil]; exact ht
  have settle : ∀ {i q m'}, b.pending.get i = some q → answers m' = some (48, q.requestID) → b'.pending = b.pending.del i →
      Once s b' up' sent (inbox ++ messagesFor s [(q.callerID, m')]) := by
    intro i q m' hi hm e
    rw [messagesFor_one]
    have ht' : Once s b' up' sent inbox := ht.pending fun j p hp _ => by
      rw [e, AMap.get_del] at hp
      split at hp
      · cases hp
      · exact hp
    by_cases hs : q.callerID = s
    · rw [if_pos hs]
      obtain ⟨-, g2, g3⟩ := hd.pend i q hi hs
      refine ht'.one hm (fun m0 hm0 => h.pend i q hi hs m0 hm0) g2 fun _ => ⟨hsub _ g3, fun j p hp hc ee => ?_⟩
      rw [e, AMap.get_del] at hp
      split at hp
      · cases hp
      · rename_i hne
        exact hne (hd.uniq j i p q hp hi hc hs (by simpa using ee.symm))
    · rw [if_neg hs, List.append_nil]; exact ht'
  cases hst with
  | quiet m b' e1 e2 => exact hsame e1 hnil
  | refused r o u a k bin d e a' k' =>
    by_cases hs : s = p
    · refine own (k := (48, r)) rfl rfl fun i q hi hc e => ?_
      have := (hd.pend i q hi hc).2.2
      rw [← e, h1 hs] at this
      exact this (mem_reqs (.head _) rfl)
    · rw [messagesFor_one, if_neg (Ne.symm hs), List.append_nil]; exact ht
  | called r o u a k bin i q b' out e1 e2 e3 e4 e5 =>
    have ho := ht.other (hinv e5)
    refine ⟨ho.last, ho.up, ho.sent, fun j q' hj hc m' hm' e => ?_⟩
    rw [e3, AMap.get_set] at hj
    split at hj
    · cases hj
      rw [e2] at e
      rcases List.mem_append.1 hm' with hm' | hm'
      · have := h.up m' hm' _ e
        rw [h1 (hc.symm.trans e1)] at this
        exact this (mem_reqs (.head _) rfl)
      · have := settles_answers e
        rw [hinv e5 m' hm'] at this
        cases this
    · exact ho.pend j q' hj hc m' hm' e
  | continued r o u a k bin i b' out e1 e2 e3 e4 => exact hsame e2 (ht.other (hinv e4))
  | dropped m i b' e1 e2 =>
    refine hnil.pending fun j p hp _ => ?_
    rw [e1, AMap.get_del] at hp
    split at hp
    · cases hp
    · exact hp
  | progress m i q d a k bin e1 e2 =>
    rw [messagesFor_one]
    by_cases hs : q.callerID = s
    · rw [if_pos hs]
      refine ht.one (k := (48, q.requestID)) rfl (fun m0 hm0 => h.pend i q e1 hs m0 hm0) (hd.pend i q e1 hs).2.1 fun e => ?_
      simp [settles, e2] at e
    · rw [if_neg hs, List.append_nil]; exact ht
  | result m i q b' d a k bin e1 e2 e3 e4 => exact settle e1 rfl e3
  | error m i q b' d u a k e1 e3 e4 => exact settle e1 rfl e3
  | registered r o u g b' e1 e2 => exact hsame e1 (own (k := (64, r)) rfl rfl (by simp))
  | taken r o u d e a k => exact own (k := (64, r)) rfl rfl (by simp)
  | unregistered r g b' e1 e2 e3 => exact hsame e1 (own (k := (66, r)) rfl rfl (by simp))

end

/-- What the broker sends: answers to the request at hand, and EVENTs. -/
theorem broker_answer {h : List Broker.Event} {b : Broker.State} (hh : Broker.Hist w h b) (hlen : h.length < 2 ^ 53) {p : Nat} {m : Msg}
    {wo : List Str} {so : List Nat} {op : Broker.Op} (hop : callB p m wo so = some op) (s : Nat) :
    ∃ new, (∀ m ∈ new, answers m = none) ∧ (messagesFor s (brokerOut (Broker.step w b op).2) = new ∨
      s = p ∧ ∃ k m', request m = some k ∧ answers m' = some k ∧ k.1 ≠ 48 ∧ messagesFor s (brokerOut (Broker.step w b op).2) = new ++ [m']) := by
  cases m <;> simp only [callB, reduceCtorEq, Option.some.injEq] at hop <;> subst hop
  case publish q o u a k =>
    rcases Broker.publish_result hh hlen p q o u a k wo so with ⟨-, e, -⟩ | ⟨-, pub, hpub, n, -, -, hack, hev⟩
    · exact ⟨[], by simp, .inl (by simp [Broker.step, e, brokerOut, messagesFor])⟩
    · simp only [Broker.step, hpub, Res.map_ok, brokerOut, messagesFor_append]
      have hev : ∃ rs i d, pub.event = none ∨ pub.event = some (.event i n d a k) ∧ pub.recipients = rs := by
        rcases hev with ⟨e3, -⟩ | ⟨t', i, -, e3, -⟩
        · exact ⟨[], 0, none, .inl e3⟩
        · exact ⟨_, i, _, .inr ⟨e3, rfl⟩⟩
      have key : ∀ new, (∀ m ∈ new, answers m = none) → ∃ new', (∀ m ∈ new', answers m = none) ∧
          (new ++ messagesFor s (match (if o.flag (str "acknowledge") = true then some (Msg.published q n, p) else none) with
            | some (m, s) => [(s, m)] | none => []) = new' ∨ s = p ∧ ∃ k' m', request (.publish q o u a k) = some k' ∧ answers m' = some k' ∧ k'.1 ≠ 48 ∧
          new ++ messagesFor s (match (if o.flag (str "acknowledge") = true then some (Msg.published q n, p) else none) with
            | some (m, s) => [(s, m)] | none => []) = new' ++ [m']) := by
        intro new hn
        refine ⟨new, hn, ?_⟩
        by_cases ho : o.flag (str "acknowledge") = true
        · simp only [if_pos ho, messagesFor_one]
          by_cases hs : p = s
          · exact .inr ⟨hs.symm, (16, q), .published q n, rfl, rfl, by simp, by rw [if_pos hs]⟩
          · exact .inl (by rw [if_neg hs, List.append_nil])
        · exact .inl (by simp [if_neg ho, messagesFor])
      rw [hack]
      obtain ⟨rs, i, d, e3 | ⟨e3, -⟩⟩ := hev
      · simp only [e3]
        exact key _ (by simp [messagesFor])
      · simp only [e3]
        refine key _ fun m hm => ?_
        have hm := mem_messagesFor.1 hm
        obtain ⟨_, -, e⟩ := List.mem_map.1 hm
        cases e
        rfl
  case subscribe q o t =>
    refine ⟨[], by simp, ?_⟩
    rcases subscribed_of (w := w) (b := b) (s := p) (q := q) (o := o) (t := t) with e | ⟨i, e⟩
    · exact .inl (by simp [e, brokerOut, messagesFor])
    · simp only [e, brokerOut, messagesFor_one]
      by_cases hs : p = s
      · exact .inr ⟨hs.symm, (32, q), .subscribed q i, rfl, rfl, by simp, by rw [if_pos hs]; rfl⟩
      · exact .inl (if_neg hs)
  case unsubscribe q g =>
    refine ⟨[], by simp, ?_⟩
    rcases Broker.C78_unsubscribe hh hlen p q g with ⟨-, e⟩ | ⟨-, e⟩
    · simp only [e, brokerOut, messagesFor_one]
      by_cases hs : p = s
      · exact .inr ⟨hs.symm, (34, q), .unsubscribed q, rfl, rfl, by simp, by rw [if_pos hs]; rfl⟩
      · exact .inl (if_neg hs)
    · exact .inl (by simp [e, brokerOut, messagesFor])

theorem reach_once {l : Log} (h : Log.Reach w l) (hlen : l.sys.bh.length ≤ 2 ^ 53) (s : Nat) (hf : Fresh l.sys s) :
    Once s l.sys.dealer (l.sys.up s) (l.sys.sent s) (l.inbox s) := by
  induction h with
  | new => exact ⟨.nil, by simp [Log.new, Log.inbox, Sys.new], by simp [Log.new, Log.inbox, Sys.new], by simp [Log.new, Log.inbox, Sys.new]⟩
  | @act l l' a hl ha ih =>
    have hc := log_change ha
    have hl0 := Nat.le_trans (change_grows hc).1 hlen
    have hf0 := hf.back hc
    have ih := ih hl0 hf0
    have hx := log_sys hl
    have hai := reach_ai hx s hf0
    obtain ⟨hbh, hdh⟩ := reach_hist hx
    have hq0 : QI (l.sys.up s) [] (l.sys.sent s) := ⟨hai.q.nod, hai.q.used, by simp, by simp, hai.q.snt⟩
    cases log_step ha with
    | admin bop dop j h1 h2 h3 =>
      refine ih.pending fun i p hp _ => ?_
      obtain ⟨e, -⟩ := admin_frame h2 h3
      simp only at hp
      rw [e] at hp
      exact hp
    | send p data m c h1 =>
      by_cases hs : s = p
      · subst hs
        simp only [Log.inbox, upd_same]
        have hf : (reqs (m :: l.sys.sent s)).Nodup := by simpa only [Fresh, upd_same] using hf
        refine ⟨ih.last, fun m' hm' k hk hu => ?_, fun m' hm' k hk => ?_, ih.pend⟩
        · rw [reqs_append] at hu
          rcases List.mem_append.1 hu with hu | hu
          · exact ih.up m' hm' k hk hu
          · have := ih.sent m' hm' k (settles_answers hk)
            rw [reqs_cons] at hf
            exact (List.nodup_append.1 hf).2.2 k hu k this rfl
        · rw [reqs_cons]
          exact List.mem_append.2 (.inr (ih.sent m' hm' k hk))
      · simpa only [Log.inbox, upd_other _ _ hs] using ih
    | deliver p m rest c h1 =>
      have : Log.inbox ⟨{ l.sys with client := upd l.sys.client p c, down := upd l.sys.down p rest }, upd l.got p (l.got p ++ [m])⟩ s = l.inbox s := by
        by_cases hs : s = p
        · subst hs
          simp [Log.inbox, upd_same, h1]
        · simp only [Log.inbox, upd_other _ _ hs]
      rw [this]
      exact ih
    | ignore p m rest h1 h2 h3 =>
      by_cases hs : s = p
      · subst hs
        simp only [upd_same]
        rw [h1] at ih
        exact ih.take
      · simpa only [Log.inbox, upd_other _ _ hs] using ih
    | broker p m rest wo so op h1 h2 =>
      have htake : Once s l.sys.dealer (upd l.sys.up p rest s) (l.sys.sent s) (l.inbox s) := by
        by_cases hs : s = p
        · subst hs
          rw [h1] at ih
          simpa only [upd_same] using ih.take
        · simpa only [upd_other _ _ hs] using ih
      obtain ⟨new, hn, e | ⟨rfl, k, m', k1, k2, k3, e⟩⟩ := broker_answer hbh (show l.sys.bh.length < 2 ^ 53 from hlen) h2 s
      · simp only [Log.inbox, e]
        rw [← List.append_assoc]
        exact htake.other hn
      · simp only [Log.inbox, e, upd_same]
        rw [← List.append_assoc, ← List.append_assoc]
        rw [h1] at ih hq0
        refine (ih.other hn).answer hq0 k1 k2 fun i p _ _ e => k3 (by rw [e])
    | dealer p m rest wo rnd h1 h2 h3 =>
      have hst := dstep l.sys.dealer p m wo rnd h2 h3
      simp only [Log.inbox]
      rw [← List.append_assoc]
      by_cases hs : s = p
      · subst hs
        rw [upd_same]
        exact ih.dealer hst hq0 hai.d (fun _ => h1) (fun h => absurd rfl h)
      · rw [upd_other _ _ hs]
        exact ih.dealer hst hq0 hai.d (fun h => absurd h hs) (fun _ => rfl)

/-- **C116** A client that does not use request IDs twice gets only answers to its requests, and after the answer that settles a request (RESULT that is
not progressive, ERROR, REGISTERED, UNREGISTERED, PUBLISHED, SUBSCRIBED, UNSUBSCRIBED) it gets no other answer to it. -/
theorem C116_settled_once {l : Log} (h : Log.Reach w l) (hlen : l.sys.bh.length ≤ 2 ^ 53) (s : Nat) (hf : Fresh l.sys s) (pre post : List Msg) (m : Msg)
    (k : Nat × Nat) (hm : l.inbox s = pre ++ m :: post) (hk : settles m = some k) :
    (∃ m' ∈ l.sys.sent s, request m' = some k) ∧ ∀ m' ∈ post, answers m' ≠ some k := by
  have ho := reach_once h hlen s hf
  rw [hm] at ho
  refine ⟨List.mem_filterMap.1 (ho.sent m (by simp) k (settles_answers hk)), fun m' hm' => ?_⟩
  exact (List.pairwise_cons.1 (List.pairwise_append.1 ho.last).2.1).1 m' hm' k hk

/-- Client 2 calls client 1, who answers progressively and then finally. -/
def progressing : List Action :=
  three ++ does 1 (.register 1 none (str "p")) ++ does 2 (.call 7 (some [(str "receive_progress", .bool true)]) (str "p") none none ⟨false, 0, []⟩) ++
  [.deliver 1, .deliver 1] ++ does 1 (.yield 2 (some [(str "progress", .bool true)]) none none ⟨false, 0, []⟩) ++
  does 1 (.yield 2 none none none ⟨false, 0, []⟩) ++ does 2 (.subscribe 8 none (str "t"))

example : Log.Reach Dealer.noWild (logged progressing) ∧ (logged progressing).sys.bh.length ≤ 2 ^ 53 ∧ Fresh (logged progressing).sys 2 ∧
    ((logged progressing).inbox 2).map answers = [some (48, 7), some (48, 7), some (32, 8)] ∧
    ((logged progressing).inbox 2).map settles = [none, some (48, 7), some (32, 8)] :=
  ⟨reach_logged _, by decide +kernel, by unfold Fresh; decide +kernel, by decide +kernel, by decide +kernel⟩

/-! ### C117: UNSUBSCRIBE -/

theorem next_unsub {T : Session.State} {m : Msg} {q g : Nat} (h : next T m .unsubscribe q = some g) : T .unsubscribe q = some g := by
  by_cases ha : answers m = some (34, q)
  · cases m <;> simp only [answers, Option.some.injEq, Prod.mk.injEq, reduceCtorEq, Nat.reduceEqDiff, false_and] at ha
    case unsubscribed r =>
      simp only [next, recv, Prog.run] at h
      cases h1 : T .unsubscribe r <;> rw [h1] at h
      · exact h
      · rename_i g'
        simp only [Prog.run] at h
        cases h2 : T .subscriptions g' <;> rw [h2] at h <;> exact h
    case error t r _ _ _ _ =>
      obtain ⟨rfl, rfl⟩ := ha
      simp only [next, recv, errorTab, Prog.run] at h
      cases h1 : T .unsubscribe r <;> rw [h1] at h <;> simp [Prog.run, State.put] at h
  · rwa [next_keep (t := .unsubscribe) (n := 34) rfl ha] at h

/-- A subscription stays in the table unless UNSUBSCRIBED for it comes. -/
theorem after_keeps {T : Session.State} {q : List Msg} {i : Nat} (h : (T .subscriptions i).isSome = true)
    (hq : ∀ r, .unsubscribed r ∈ q → T .unsubscribe r ≠ some i) : (after T q .subscriptions i).isSome = true := by
  induction q generalizing T with
  | nil => exact h
  | cons m q ih =>
    refine ih ?_ fun r hr e => hq r (.tail _ hr) (next_unsub e)
    by_cases h1 : ∃ r j, m = .subscribed r j
    · obtain ⟨r, j, rfl⟩ := h1
      simp only [next, recv, Prog.run]
      cases T .subscribe r <;> simp only [Prog.run]
      · exact h
      · simp only [State.put, if_true, FMap.set_apply]
        split
        · rfl
        · exact h
    · by_cases h2 : ∃ r, m = .unsubscribed r
      · obtain ⟨r, rfl⟩ := h2
        have hne := hq r (.head _)
        simp only [next, recv, Prog.run]
        cases h3 : T .unsubscribe r <;> simp only [Prog.run]
        · exact h
        · rename_i g
          have hg : i ≠ g := by rintro rfl; exact hne h3
          cases T .subscriptions g <;> simp only [Prog.run, State.put, if_true, FMap.del_apply, if_neg hg] <;> exact h
      · rw [next_subs (fun r j e => h1 ⟨r, j, e⟩) (fun r e => h2 ⟨r, e⟩)]
        exact h

/-- A client's UNSUBSCRIBE requests were sent. -/
theorem unsub_sent {x : Sys} (h : Reach w x) (s q g : Nat) (hq : x.client s .unsubscribe q = some g) : .unsubscribe q g ∈ x.sent s := by
  induction h with
  | new => cases hq
  | @act x y a hx ha ih =>
    cases act_change ha with
    | send p data m c b h1 =>
      simp only [upd] at hq ⊢
      split
      · rename_i e
        subst e
        rw [if_pos rfl] at hq
        rcases send_effect h1 with ⟨t, r, v, n, e1, e2, e3, e4, e5, e6⟩ | ⟨e1, e2⟩
        · by_cases hx : .unsubscribe = t ∧ q = r
          · obtain ⟨rfl, rfl⟩ := hx
            cases e2
            cases m <;> simp only [request, Option.some.injEq, Prod.mk.injEq, reduceCtorEq, Nat.reduceEqDiff, false_and] at e1
            rename_i r' g'
            have := e5 r' g' rfl
            rw [hq] at e3
            cases e3
            rw [this, ← e1.2]
            exact .head _
          · rw [e4 _ _ hx] at hq
            exact .tail _ (ih hq)
        · rw [e2 _ _ (by nofun)] at hq
          exact .tail _ (ih hq)
      · rename_i e
        rw [if_neg e] at hq
        exact ih hq
    | deliver p m rest h1 =>
      simp only [upd] at hq
      split at hq
      · rename_i e
        subst e
        exact ih (next_unsub hq)
      · exact ih hq
    | _ => exact ih hq

/-- UNSUBSCRIBE is under way, and will find its subscription; or it has been answered. -/
def Ending (s q i : Nat) (l : Log) : Prop :=
  (∃ pre post t, l.sys.up s = pre ++ .unsubscribe q i :: post ∧ (∀ q', .unsubscribe q' i ∉ pre) ∧ Broker.current l.sys.bh s t = some i) ∨
  .unsubscribed q ∈ l.inbox s

/-- The router takes a message: it is the one at the head, or one before it, or of another client. -/
theorem up_take {f : Nat → List Msg} {p s : Nat} {m x : Msg} {rest pre post : List Msg} (h1 : f p = m :: rest) (hu : f s = pre ++ x :: post) :
    (s = p ∧ m = x ∧ pre = []) ∨ (s = p ∧ ∃ pre', pre = m :: pre' ∧ upd f p rest s = pre' ++ x :: post) ∨ (s ≠ p ∧ upd f p rest s = pre ++ x :: post) := by
  by_cases hs : s = p
  · subst hs
    rw [h1] at hu
    rw [upd_same]
    cases pre with
    | nil => cases hu; exact .inl ⟨rfl, rfl, rfl⟩
    | cons y pre => cases hu; exact .inr (.inl ⟨rfl, pre, rfl, rfl⟩)
  · rw [upd_other _ _ hs]
    exact .inr (.inr ⟨hs, hu⟩)

theorem ending_step {l l' : Log} {a : Action} (hl : Log.Reach w l) (ha : l.act w a = some l') (hlen : l'.sys.bh.length ≤ 2 ^ 53) {s q i : Nat}
    (hs : Stays l'.sys s) (h : Ending s q i l) : Ending s q i l' := by
  rcases h with ⟨pre, post, t, hu, hp, hcur⟩ | h
  case inr => exact .inr ((inbox_step ha s).subset h)
  have hx := log_sys hl
  have hl0 := Nat.le_trans (change_grows (log_change ha)).1 hlen
  have hs0 := Stays.back (log_change ha) hs
  obtain ⟨hbh, hdh⟩ := reach_hist hx
  have hin := inbox_step ha s
  cases log_step ha with
  | admin bop dop j h1 h2 h3 =>
    refine .inl ⟨pre, post, t, hu, hp, current_same hcur ?_ ?_ (fun o => hs.1 _ (.head _) o)⟩
    · rintro j ⟨_, _, _, _, e⟩
      injection e with e
      subst e
      exact h1.elim
    · intro q e
      subst e
      exact h1.elim
  | send p data m c h1 =>
    by_cases e : s = p
    · subst e
      exact .inl ⟨pre, post ++ [m], t, by simp [upd_same, hu], hp, hcur⟩
    · exact .inl ⟨pre, post, t, by simp only [upd_other _ _ e, hu], hp, hcur⟩
  | deliver p m rest c h1 => exact .inl ⟨pre, post, t, hu, hp, hcur⟩
  | dealer p m rest wo rnd h1 h2 h3 =>
    rcases up_take h1 hu with ⟨-, rfl, -⟩ | ⟨-, pre', rfl, e⟩ | ⟨-, e⟩
    · exact h2.elim
    · exact .inl ⟨pre', post, t, e, fun q' h => hp q' (.tail _ h), hcur⟩
    · exact .inl ⟨pre, post, t, e, hp, hcur⟩
  | ignore p m rest h1 h2 h3 =>
    rcases up_take h1 hu with ⟨-, rfl, -⟩ | ⟨-, pre', rfl, e⟩ | ⟨-, e⟩
    · cases h2
    · exact .inl ⟨pre', post, t, e, fun q' h => hp q' (.tail _ h), hcur⟩
    · exact .inl ⟨pre, post, t, e, hp, hcur⟩
  | broker p m rest wo so op h1 h2 =>
    have hlt : l.sys.bh.length < 2 ^ 53 := hlen
    have keep : (∀ q', op ≠ .receive s (.unsubscribe q' i)) →
        Broker.current (⟨op, (Broker.step w l.sys.broker op).2⟩ :: l.sys.bh) s t = some i := by
      intro hne
      refine current_same hcur ?_ hne (fun o => hs.1 _ (.head _) o)
      rintro j ⟨r, o, r', s', e⟩
      injection e with e1 e2
      have hA := reach_att hx hl0
      have hss : s = p := by
        cases m <;> simp only [callB, reduceCtorEq, Option.some.injEq] at h2 <;> rw [← h2] at e1 <;> cases e1
        rfl
      subst hss
      obtain ⟨j', e3, e4⟩ := Broker.subscribe_result (w := w) (Broker.hist_inv hbh hl0) s r o t
        (hA.jb s (hA.sj s (List.ne_nil_of_mem ((reach_sent hx).up s _ (by rw [h1]; exact .head _)))) hs0)
      rw [e1, e3] at e2
      cases e2
      exact e4 s i hcur
    rcases up_take h1 hu with ⟨rfl, rfl, -⟩ | ⟨rfl, pre', rfl, e⟩ | ⟨hsp, e⟩
    · cases h2
      right
      rcases Broker.C78_unsubscribe hbh hlt s q i with ⟨-, e⟩ | ⟨hn, -⟩
      · simp only [Log.inbox, e, brokerOut, messagesFor_one, if_true]
        simp
      · exact absurd hcur (hn t)
    · refine .inl ⟨pre', post, t, e, fun q' h => hp q' (.tail _ h), keep fun q' e => ?_⟩
      cases m <;> simp only [callB, reduceCtorEq, Option.some.injEq] at h2 <;> rw [← h2] at e <;> cases e
      exact hp q' (.head _)
    · refine .inl ⟨pre, post, t, e, hp, keep fun q' e => ?_⟩
      cases m <;> simp only [callB, reduceCtorEq, Option.some.injEq] at h2 <;> rw [← h2] at e <;> cases e
      exact hsp rfl

/-- **C117** An UNSUBSCRIBE is answered, unless the client is removed, uses a request ID twice, or sends it while another UNSUBSCRIBE of the same
subscription is waiting for its answer. -/
theorem C117_unsubscribe_answered {l0 l1 l2 : Log} (h0 : Log.Reach w l0) (s q i : Nat) (data : Str)
    (h1 : l0.act w (.send s data (.unsubscribe q i)) = some l1) (as : List Action) (h2 : l1.run w as = some l2)
    (hlen : l2.sys.bh.length ≤ 2 ^ 53) (hf : Fresh l2.sys s) (hs : Stays l2.sys s)
    (hu : ∀ q', .unsubscribe q' i ∈ l0.sys.sent s → .unsubscribed q' ∈ l0.got s) :
    .unsubscribe q i ∈ l2.sys.up s ∨ .unsubscribed q ∈ l2.inbox s := by
  have hr1 := h0.act _ h1
  obtain ⟨g1, g2, g3, g4⟩ := run_grows as h2
  obtain ⟨c1, c2⟩ := change_hist (log_change h1)
  have c3 := (change_grows (log_change h1)).2.2
  have hl0 : l0.sys.bh.length ≤ 2 ^ 53 := Nat.le_trans (c1.trans g1).length_le hlen
  have hf0 : Fresh l0.sys s := List.Nodup.sublist (List.Sublist.filterMap _ ((c3 s).trans (g3 s)).sublist) hf
  have hs0 : Stays l0.sys s := ⟨fun e he => hs.1 e ((c1.trans g1).subset he), fun e he => hs.2 e ((c2.trans g2).subset he)⟩
  have ho := reach_once h0 hl0 s hf0
  have hx := log_sys h0
  -- the client has the subscription, and no UNSUBSCRIBED for it is under way
  obtain ⟨y, hy, rfl⟩ := Option.map_eq_some_iff.1 h1
  have hst : (l0.sys.client s .subscriptions i).isSome = true ∧ y.up s = l0.sys.up s ++ [.unsubscribe q i] ∧ y.bh = l0.sys.bh := by
    simp only [Sys.act] at hy
    split at hy
    · rename_i hsend
      simp only [send, Prog.run] at hsend
      cases hc : l0.sys.client s .subscriptions i with
      | none => simp [hc, Prog.run] at hsend
      | some v =>
        split at hy
        · cases hy
          exact ⟨rfl, by simp [upd_same], rfl⟩
        · cases hy
    · cases hy
  obtain ⟨e1, e2, e3⟩ := hst
  obtain ⟨t, ht⟩ := reach_agree hx s hl0 hf0 hs0 i (after_keeps e1 fun r hr he => by
    have := hu r (unsub_sent hx s r i he)
    have hpw := (List.pairwise_append.1 ho.last).2.2 _ this _ hr (34, r) rfl
    exact hpw rfl)
  have hend : Ending s q i ⟨y, l0.got⟩ := by
    refine .inl ⟨l0.sys.up s, [], t, e2, fun q' hq' => ?_, by rw [e3]; exact ht⟩
    have := hu q' ((reach_sent hx).up s _ hq')
    exact ho.up _ (List.mem_append.2 (.inl this)) (34, q') rfl (mem_reqs hq' rfl)
  clear hu ho ht e1 e2 e3 hs0 hf0 hl0 c1 c2 c3 h1 hy
  have : Ending s q i l2 := by
    clear g1 g2 g3 g4
    generalize (⟨y, l0.got⟩ : Log) = l at hr1 h2 hend
    induction as generalizing l with
    | nil => cases h2; exact hend
    | cons a as ih =>
      obtain ⟨z, hz, h2⟩ := Option.bind_eq_some_iff.1 h2
      obtain ⟨g1, g2, g3, g4⟩ := run_grows as h2
      exact ih z (hr1.act a hz) h2 (ending_step hr1 hz (Nat.le_trans g1.length_le hlen)
        ⟨fun e he => hs.1 e (g1.subset he), fun e he => hs.2 e (g2.subset he)⟩ hend)
  rcases this with ⟨pre, post, -, e, -⟩ | h
  · exact .inl (by rw [e]; simp)
  · exact .inr h

-- Then client 1 unsubscribes again.
example : ∃ l0 l1 l2, Log.Reach Dealer.noWild l0 ∧ l0.act Dealer.noWild (.send 1 [] (.unsubscribe 4 1)) = some l1 ∧
    l1.run Dealer.noWild [.route 1 [] [] 0, .deliver 1, .deliver 1] = some l2 ∧ l2.sys.bh.length ≤ 2 ^ 53 ∧ Fresh l2.sys 1 ∧ Stays l2.sys 1 ∧
    (∀ q', .unsubscribe q' 1 ∈ l0.sys.sent 1 → .unsubscribed q' ∈ l0.got 1) ∧ .unsubscribe 2 1 ∈ l0.sys.sent 1 ∧
    (l2.got 1).map answers = [some (32, 1), some (34, 2), some (32, 3), none, some (34, 4)] := by
  refine ⟨logged comeAndGo, logged (comeAndGo ++ [.send 1 [] (.unsubscribe 4 1)]),
    logged (comeAndGo ++ [.send 1 [] (.unsubscribe 4 1), .route 1 [] [] 0, .deliver 1, .deliver 1]), reach_logged _, rfl, rfl,
    by decide +kernel, by unfold Fresh; decide +kernel, stays_of (by decide +kernel), ?_, ?_, by decide +kernel⟩
  · intro q' h
    have : (logged comeAndGo).sys.sent 1 = [.subscribe 3 none (str "t"), .unsubscribe 2 1, .subscribe 1 none (str "t")] := rfl
    rw [this] at h
    simp at h
    subst h
    exact .tail _ (.head _)
  · have : (logged comeAndGo).sys.sent 1 = [.subscribe 3 none (str "t"), .unsubscribe 2 1, .subscribe 1 none (str "t")] := rfl
    rw [this]
    simp

/-- **C117** A second UNSUBSCRIBE, sent before the answer to the first has come, gets no answer: not even an ERROR. -/
theorem C117_second_unanswered : ∃ l, Log.Reach Dealer.noWild l ∧ Fresh l.sys 1 ∧ Stays l.sys 1 ∧ .unsubscribe 3 1 ∈ l.sys.sent 1 ∧ l.sys.up 1 = [] ∧
    (l.inbox 1).map answers = [some (32, 1), some (34, 2)] := by
  refine ⟨logged (three ++ does 1 (.subscribe 1 none (str "t")) ++ [.deliver 1] ++ [.send 1 [] (.unsubscribe 2 1), .send 1 [] (.unsubscribe 3 1),
    .route 1 [] [] 0, .route 1 [] [] 0]), reach_logged _, by unfold Fresh; decide +kernel, stays_of (by decide +kernel), .head _, rfl, by decide +kernel⟩

/-! ### C117: UNREGISTER -/

/-- The dealer has a registration with this ID for the session. -/
def holds (b : Dealer.State) (s g : Nat) : Prop := ∃ m x, b.bySession s = some m ∧ m.get g = some x

theorem holds_step {h : List Dealer.Event} {b : Dealer.State} (hh : Dealer.Hist w h b) {op : Dealer.Op} (hnp : (Dealer.step w b op).2 ≠ .panic) {s g : Nat}
    (hb : holds b s g) (h1 : ∀ o, op ≠ .remove s o) (h2 : ∀ q wo rnd, op ≠ .receive s (.unregister q g) wo rnd) :
    holds (Dealer.step w b op).1 s g := by
  obtain ⟨m, x, hm, hg⟩ := hb
  have hsame : ∀ {b' : Dealer.State}, b'.bySession s = b.bySession s → holds b' s g := fun e => ⟨m, x, e.trans hm, hg⟩
  cases op with
  | add d =>
    simp only [Dealer.step, Dealer.addSession]
    split
    · exact ⟨m, x, hm, hg⟩
    · rename_i hn
      refine hsame ?_
      simp only [FMap.set_apply]
      split
      · rename_i e
        subst e
        have hi := Dealer.hist_sinv hh
        have h3 := hi.bys d.id
        rw [← hi.sess, hm] at h3
        exact absurd h3.symm hn
      · rfl
  | remove s' o =>
    rcases Dealer.remove_cases b s' o with ⟨-, e⟩ | ⟨-, e⟩ | ⟨-, -, -, -, e⟩
    · simp only [Dealer.step, e]; exact ⟨m, x, hm, hg⟩
    · simp [Dealer.step, e] at hnp
    · refine hsame ?_
      simp only [Dealer.step, e, FMap.del_apply]
      rw [if_neg]
      rintro rfl
      exact h1 o rfl
  | has p => exact ⟨m, x, hm, hg⟩
  | disclose on => exact ⟨m, x, hm, hg⟩
  | receive p m0 wo rnd =>
    cases m0 <;> simp only [Dealer.step, Dealer.receive] at hnp ⊢ <;> try exact ⟨m, x, hm, hg⟩
    case call r o u a k bin =>
      rcases Dealer.call_cases w b p r o u a k bin wo rnd with ⟨-, e⟩ | ⟨e, -⟩ | ⟨_, c, _, i, -, -, -, ⟨-, -, e⟩ | ⟨-, -, e⟩, -⟩
      · rw [e]; exact ⟨m, x, hm, hg⟩
      · rw [e] at hnp; exact absurd rfl hnp
      · rw [e]; exact ⟨m, x, hm, hg⟩
      · rw [e]; exact ⟨m, x, hm, hg⟩
    case yield i o a k bin =>
      rcases Dealer.yield_cases b i o a k bin with ⟨-, e⟩ | ⟨q, -, e, -⟩ <;> rw [e]
      · exact ⟨m, x, hm, hg⟩
      · split <;> exact ⟨m, x, hm, hg⟩
    case error t i d u a k =>
      rcases Dealer.error_cases b t i d u a k with ⟨-, e⟩ | ⟨-, q, -, e⟩ <;> rw [e] <;> exact ⟨m, x, hm, hg⟩
    case register r o u =>
      rcases Dealer.register_cases b p r o u with ⟨-, e⟩ | ⟨m', hm', ⟨_, -, -, e⟩ | ⟨_, -, -, e⟩ | ⟨-, e⟩⟩ <;> rw [e]
      · exact ⟨m, x, hm, hg⟩
      · exact ⟨m, x, hm, hg⟩
      all_goals
        by_cases hp : s = p
        · subst hp
          rw [hm] at hm'
          cases hm'
          refine Option.isSome_iff_exists.1 (?_ : Option.isSome _ = true) |>.elim fun y hy => ⟨_, y, FMap.set_same .., hy⟩
          rw [AMap.get_set]
          split
          · rfl
          · rw [hg]; rfl
        · refine hsame ?_
          simp only [FMap.set_apply, if_neg hp]
    case unregister r g' =>
      simp only [Dealer.unregister]
      split
      · exact ⟨m, x, hm, hg⟩
      · rename_i m' hm'
        split
        · exact ⟨m, x, hm, hg⟩
        · split
          · exact ⟨m, x, hm, hg⟩
          · split
            · by_cases hp : s = p
              · subst hp
                rw [hm] at hm'
                cases hm'
                refine ⟨_, x, FMap.set_same .., ?_⟩
                rw [AMap.get_del, if_neg]
                · exact hg
                · rintro rfl; exact h2 r wo rnd rfl
              · refine hsame ?_
                simp only [FMap.set_apply, if_neg hp]
            · exact ⟨m, x, hm, hg⟩

theorem holds_kept {h : List Dealer.Event} {b : Dealer.State} (hh : Dealer.Hist w h b) {s r g : Nat} {o : GoMap} {p : Str} {wo : List Str} {rnd : Nat}
    (he : (⟨.receive s (.register r o p) wo rnd, .ok (.msg (.registered r g) s)⟩ : Dealer.Event) ∈ h)
    (hu : ∀ e ∈ h, ∀ q wo rnd, e.op ≠ .receive s (.unregister q g) wo rnd) (hr : ∀ e ∈ h, ∀ o, e.op ≠ .remove s o) : holds b s g := by
  induction hh with
  | new => cases he
  | @step h b op hh hnp ih =>
    rcases List.mem_cons.1 he with he | he
    · injection he with e1 e2
      subst e1
      simp only [Dealer.step, Dealer.receive] at e2 ⊢
      rcases Dealer.register_cases b s r o p with ⟨-, e⟩ | ⟨m', hm', ⟨_, -, -, e⟩ | ⟨_, -, -, e⟩ | ⟨-, e⟩⟩ <;> rw [e] at e2 ⊢ <;> cases e2
      · exact ⟨_, _, FMap.set_same .., by rw [AMap.get_set, if_pos rfl]⟩
      · exact ⟨_, _, FMap.set_same .., by rw [AMap.get_set, if_pos rfl]⟩
    · exact holds_step hh hnp (ih he (fun e he => hu e (.tail _ he)) fun e he => hr e (.tail _ he)) (fun o => hr _ (.head _) o)
        (fun q wo rnd => hu _ (.head _) q wo rnd)

/-- UNREGISTER is under way, and will find its registration; or it has been answered. -/
def EndingR (s q g : Nat) (l : Log) : Prop :=
  (∃ pre post, l.sys.up s = pre ++ .unregister q g :: post ∧ (∀ q', .unregister q' g ∉ pre) ∧ holds l.sys.dealer s g) ∨ .unregistered q ∈ l.inbox s

theorem endingR_step {l l' : Log} {a : Action} (hl : Log.Reach w l) (ha : l.act w a = some l') {s q g : Nat}
    (hs : Stays l'.sys s) (h : EndingR s q g l) : EndingR s q g l' := by
  rcases h with ⟨pre, post, hu, hp, hcur⟩ | h
  case inr => exact .inr ((inbox_step ha s).subset h)
  have hx := log_sys hl
  obtain ⟨hbh, hdh⟩ := reach_hist hx
  cases log_step ha with
  | admin bop dop j h1 h2 h3 =>
    refine .inl ⟨pre, post, hu, hp, holds_step hdh h3 hcur (fun o => hs.2 _ (.head _) o) fun q wo rnd e => ?_⟩
    subst e
    exact h2.elim
  | send p data m c h1 =>
    by_cases e : s = p
    · subst e
      exact .inl ⟨pre, post ++ [m], by simp [upd_same, hu], hp, hcur⟩
    · exact .inl ⟨pre, post, by simp only [upd_other _ _ e, hu], hp, hcur⟩
  | deliver p m rest c h1 => exact .inl ⟨pre, post, hu, hp, hcur⟩
  | broker p m rest wo so op h1 h2 =>
    rcases up_take h1 hu with ⟨-, rfl, -⟩ | ⟨-, pre', rfl, e⟩ | ⟨-, e⟩
    · cases h2
    · exact .inl ⟨pre', post, e, fun q' h => hp q' (.tail _ h), hcur⟩
    · exact .inl ⟨pre, post, e, hp, hcur⟩
  | ignore p m rest h1 h2 h3 =>
    rcases up_take h1 hu with ⟨-, rfl, -⟩ | ⟨-, pre', rfl, e⟩ | ⟨-, e⟩
    · exact absurd trivial h3
    · exact .inl ⟨pre', post, e, fun q' h => hp q' (.tail _ h), hcur⟩
    · exact .inl ⟨pre, post, e, hp, hcur⟩
  | dealer p m rest wo rnd h1 h2 h3 =>
    rcases up_take h1 hu with ⟨rfl, rfl, -⟩ | ⟨rfl, pre', rfl, e⟩ | ⟨hsp, e⟩
    · right
      obtain ⟨m, x, hm, hg⟩ := hcur
      have he : (Dealer.step w l.sys.dealer (.receive s (.unregister q g) wo rnd)).2 = .ok (.msg (.unregistered q) s) := by
        simp only [Dealer.step, Dealer.receive]
        have hne : m.isEmpty = false := by
          cases m with
          | nil => cases hg
          | cons _ _ => rfl
        simp only [Dealer.unregister, hm, hne, hg]
        rfl
      simp only [Log.inbox, he, dealerOut, messagesFor_one, if_true]
      simp
    · refine .inl ⟨pre', post, e, fun q' h => hp q' (.tail _ h), holds_step hdh h3 hcur (fun o => hs.2 _ (.head _) o) fun q' wo rnd e => ?_⟩
      cases e
      exact hp q' (.head _)
    · refine .inl ⟨pre, post, e, hp, holds_step hdh h3 hcur (fun o => hs.2 _ (.head _) o) fun q' wo rnd e => ?_⟩
      cases e
      exact hsp rfl

/-- **C117** The first UNREGISTER of a registration is answered, unless the client is removed; for registrations that may be shared, too. -/
theorem C117_unregister_answered {l0 l1 l2 : Log} (h0 : Log.Reach w l0) (s r q g : Nat) (data : Str) (hreg : .registered r g ∈ l0.inbox s)
    (h1 : l0.act w (.send s data (.unregister q g)) = some l1) (as : List Action) (h2 : l1.run w as = some l2)
    (hlen : l0.sys.bh.length ≤ 2 ^ 53) (hs : Stays l2.sys s) (hu : ∀ q', .unregister q' g ∉ l0.sys.sent s) :
    .unregister q g ∈ l2.sys.up s ∨ .unregistered q ∈ l2.inbox s := by
  have hr1 := h0.act _ h1
  obtain ⟨g1, g2, g3, g4⟩ := run_grows as h2
  obtain ⟨c1, c2⟩ := change_hist (log_change h1)
  have hs0 : Stays l0.sys s := ⟨fun e he => hs.1 e ((c1.trans g1).subset he), fun e he => hs.2 e ((c2.trans g2).subset he)⟩
  have hx := log_sys h0
  have hS := reach_sent hx
  obtain ⟨o, p, wo, rnd, he⟩ := registered_event h0 hlen hreg
  have hh : holds l0.sys.dealer s g :=
    holds_kept (reach_hist hx).2 he (fun e he q wo rnd hop => hu q (hS.dh e he _ _ _ _ hop)) hs0.2
  obtain ⟨y, hy, rfl⟩ := Option.map_eq_some_iff.1 h1
  have hst : y.up s = l0.sys.up s ++ [.unregister q g] ∧ y.dealer = l0.sys.dealer := by
    simp only [Sys.act] at hy
    split at hy
    · split at hy
      · cases hy
        exact ⟨by simp [upd_same], rfl⟩
      · cases hy
    · cases hy
  have hend : EndingR s q g ⟨y, l0.got⟩ :=
    .inl ⟨l0.sys.up s, [], hst.1, fun q' hq' => hu q' (hS.up s _ hq'), by rw [hst.2]; exact hh⟩
  have : EndingR s q g l2 := by
    clear g1 g2 g3 g4 h1 hy c1 c2
    generalize (⟨y, l0.got⟩ : Log) = l at hr1 h2 hend
    induction as generalizing l with
    | nil => cases h2; exact hend
    | cons a as ih =>
      obtain ⟨z, hz, h2⟩ := Option.bind_eq_some_iff.1 h2
      obtain ⟨g1, g2, g3, g4⟩ := run_grows as h2
      exact ih z (hr1.act a hz) h2 (endingR_step hr1 hz
        ⟨fun e he => hs.1 e (g1.subset he), fun e he => hs.2 e (g2.subset he)⟩ hend)
  rcases this with ⟨pre, post, e, -⟩ | h
  · exact .inl (by rw [e]; simp)
  · exact .inr h

/-- Clients 2 and 3 share a procedure; 2 unregisters and is called in between. -/
def bothServe : List Action :=
  three ++ does 2 (registerFirst 1) ++ does 3 (registerFirst 1) ++ [.deliver 2]

theorem run_split {l l' : Log} (as bs : List Action) (h : l.run w (as ++ bs) = some l') : ∃ z, l.run w as = some z ∧ z.run w bs = some l' := by
  induction as generalizing l with
  | nil => exact ⟨l, rfl, h⟩
  | cons a as ih =>
    obtain ⟨z, h1, h2⟩ := Option.bind_eq_some_iff.1 h
    obtain ⟨y, h3, h4⟩ := ih h2
    exact ⟨y, by rw [Log.run, h1]; exact h3, h4⟩

/-- If the whole run is possible, each part of it is. -/
theorem logged_split (as bs : List Action) (h : (Log.new.run Dealer.noWild (as ++ bs)).isSome = true) :
    (logged as).run Dealer.noWild bs = some (logged (as ++ bs)) := by
  obtain ⟨y, hy⟩ := Option.isSome_iff_exists.1 h
  obtain ⟨z, h1, h2⟩ := run_split as bs hy
  simp only [logged, hy, h1, Option.getD_some]
  exact h2

theorem logged_act (as : List Action) (a : Action) (h : (Log.new.run Dealer.noWild (as ++ [a])).isSome = true) :
    (logged as).act Dealer.noWild a = some (logged (as ++ [a])) := by
  have := logged_split as [a] h
  obtain ⟨z, h1, h2⟩ := Option.bind_eq_some_iff.1 this
  cases h2
  exact h1

def unserve : List Action := does 1 (.call 1 none (str "p") none none ⟨false, 0, []⟩) ++ [.route 2 [] [] 0]

example : ∃ l0 l1 l2, Log.Reach Dealer.noWild l0 ∧ l0.act Dealer.noWild (.send 2 [] (.unregister 2 1)) = some l1 ∧ .registered 1 1 ∈ l0.inbox 2 ∧
    l1.run Dealer.noWild unserve = some l2 ∧ l0.sys.bh.length ≤ 2 ^ 53 ∧ Stays l2.sys 2 ∧
    (∀ q', .unregister q' 1 ∉ l0.sys.sent 2) ∧ (l2.inbox 2).map answers = [some (64, 1), none, some (66, 2)] := by
  have h1 : (Log.new.run Dealer.noWild (bothServe ++ [.send 2 [] (.unregister 2 1)])).isSome = true := by decide +kernel
  have h2 : (Log.new.run Dealer.noWild (bothServe ++ [.send 2 [] (.unregister 2 1)] ++ unserve)).isSome = true := by decide +kernel
  refine ⟨_, _, _, reach_logged _, logged_act _ _ h1, ?_, logged_split _ _ h2, by decide +kernel, stays_of (by decide +kernel), ?_, by decide +kernel⟩
  · have : (logged bothServe).inbox 2 = [.registered 1 1] := rfl
    rw [this]
    exact .head _
  · intro q' h
    rcases run_sent (l := Log.new) (w := Dealer.noWild) bothServe rfl 2 _ h with h | ⟨d, h⟩
    · cases h
    · simp [bothServe, three, does, registerFirst] at h

end Wamp.System
