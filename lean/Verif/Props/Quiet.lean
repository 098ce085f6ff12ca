import Verif.Props.Answered
/-!
# C113, C114: no EVENT and no INVOCATION before the subscription or registration is confirmed, or after its end is
-/
namespace Wamp.System
open Wamp

variable {w : Str → Str → Bool}

/-! ### C113 -/

theorem current_before {op : Broker.Op} {r : Res Broker.Out} {h : List Broker.Event} {s i : Nat} {t : Str}
    (hc : Broker.current (⟨op, r⟩ :: h) s t = some i) :
    (Broker.current h s t = some i ∧ ∀ q out, op = .receive s (.unsubscribe q i) → r ≠ .ok out) ∨
      ∃ q o q' s', op = .receive s (.subscribe q o t) ∧ r = .ok (.msg (.subscribed q' i) s') := by
  unfold Broker.current at hc
  split at hc
  · cases ‹_ :: _ = [] ›
  · rename_i heq
    injection heq with h4 h5
    injection h4 with h4 h6
    subst h4 h5 h6
    split at hc
    · rename_i hst
      obtain ⟨rfl, rfl⟩ := hst
      cases hc
      exact .inr ⟨_, _, _, _, rfl, rfl⟩
    · exact .inl ⟨hc, fun _ _ h => by cases h⟩
  · rename_i heq
    injection heq with h4 h5
    injection h4 with h4 h6
    subst h4 h5 h6
    split at hc
    · cases hc
    · rename_i hst
      refine .inl ⟨hc, fun q out h => ?_⟩
      cases h
      exact absurd ⟨rfl, hc⟩ hst
  · rename_i heq
    injection heq with h4 h5
    injection h4 with h4 h6
    subst h4 h5 h6
    split at hc
    · cases hc
    · exact .inl ⟨hc, fun _ _ h => by cases h⟩
  · rename_i hne1 hne2 hne3 heq
    injection heq with h4 h5
    subst h4 h5
    refine .inl ⟨hc, fun q out h1 h2 => ?_⟩
    subst h1 h2
    exact hne2 _ _ _ _ rfl

/-- In `msgs` the last SUBSCRIBED for `i` has not been followed by the answer to an UNSUBSCRIBE for `i`. -/
def opened (F : List Msg) (i : Nat) (msgs : List Msg) : Prop :=
  ∃ pre r post, msgs = pre ++ .subscribed r i :: post ∧ ∀ q, .unsubscribed q ∈ post → .unsubscribe q i ∉ F

theorem opened.append {F : List Msg} {i : Nat} {msgs new : List Msg} (h : opened F i msgs) (hn : ∀ q, .unsubscribed q ∈ new → .unsubscribe q i ∉ F) :
    opened F i (msgs ++ new) := by
  obtain ⟨pre, r, post, rfl, h1⟩ := h
  refine ⟨pre, r, post ++ new, by simp, fun q hq => ?_⟩
  rcases List.mem_append.1 hq with hq | hq
  · exact h1 q hq
  · exact hn q hq

theorem event_split {F : List Msg} {i : Nat} {msgs new pre post : List Msg} {n : Nat} {d : GoMap} {a : GoSlice} {k : GoMap}
    (old : ∀ pre post n d a k, msgs = pre ++ .event i n d a k :: post → opened F i pre)
    (hn : ∀ pre post n d a k, new = pre ++ .event i n d a k :: post → opened F i (msgs ++ pre))
    (h : msgs ++ new = pre ++ .event i n d a k :: post) : opened F i pre := by
  rcases List.append_eq_append_iff.1 h with ⟨z, h1, h2⟩ | ⟨z, h1, h2⟩
  · rw [h1]; exact hn _ _ _ _ _ _ h2
  · cases z with
    | nil =>
      rw [List.append_nil] at h1
      rw [List.nil_append] at h2
      have := hn [] _ _ _ _ _ h2.symm
      rw [List.append_nil, h1] at this
      exact this
    | cons x z =>
      injection h2 with h3 h4
      subst h3
      exact old _ _ _ _ _ _ h1

theorem quiet {l : Log} (h : Log.Reach w l) (hb : l.sys.bh.length ≤ 2 ^ 53) (F : List Msg) (s i : Nat) (hF : ∀ m ∈ l.sys.sent s, m ∈ F)
    (hq : ∀ q i j, .unsubscribe q i ∈ F → .unsubscribe q j ∈ F → i = j) :
    (∀ t, Broker.current l.sys.bh s t = some i → opened F i (l.inbox s)) ∧
    ∀ pre post n d a k, l.inbox s = pre ++ .event i n d a k :: post → opened F i pre := by
  induction h with
  | new =>
    refine ⟨fun t h => ?_, fun pre post n d a k h => ?_⟩
    · cases h
    · simp [Log.new, Sys.new, Log.inbox] at h
  | act ac hl ha ih =>
    rename_i l l'
    have hc := log_change ha
    have hlen := (change_grows hc).1
    obtain ⟨i1, i2⟩ := ih (Nat.le_trans hlen hb) (fun m hm => hF m (((change_grows hc).2.2 s).subset hm))
    have hx := log_sys hl
    have hh := reach_hist hx
    have hS := reach_sent hx
    cases log_step ha with
    | admin bop dop j h1 h2 h3 =>
      refine ⟨fun t h => ?_, i2⟩
      rcases current_before h with ⟨h, -⟩ | ⟨_, _, _, _, rfl, -⟩
      · exact i1 t h
      · exact h1.elim
    | send p data m c h1 => exact ⟨i1, i2⟩
    | ignore p m rest h1 h2 h3 => exact ⟨i1, i2⟩
    | deliver p m rest c h1 =>
      rw [inbox_deliver c h1]
      exact ⟨i1, i2⟩
    | dealer p m rest wo rnd h1 h2 h3 =>
      have hno : ∀ m' ∈ messagesFor s (dealerOut (Dealer.step w l.sys.dealer (.receive p m wo rnd)).2), fromDealer m' :=
        fun m' hm' => dealer_from _ _ (mem_messagesFor.1 hm')
      simp only [Log.inbox] at i1 i2 ⊢
      rw [← List.append_assoc]
      refine ⟨fun t h => (i1 t h).append fun q hq' => (hno _ hq').elim, fun pre post n d a k => event_split i2 fun pre post n d a k he => ?_⟩
      exact (hno (.event i n d a k) (by rw [he]; simp)).elim
    | broker p m rest wo so op h1 h2 =>
      have hlt : l.sys.bh.length < 2 ^ 53 := by simp only [List.length_cons] at hb; exact hb
      have hmF : p = s → m ∈ F := fun e => by
        subst e
        exact hF m (hS.up p m (by rw [h1]; exact .head _))
      have hsp : ∀ pre post n d a k, messagesFor s (brokerOut (Broker.step w l.sys.broker op).2) = pre ++ .event i n d a k :: post →
          opened F i (l.inbox s ++ pre) := by
        intro pre post n d a k he
        cases m <;> simp only [callB, reduceCtorEq, Option.some.injEq] at h2 <;> subst h2
        case publish q o u a' k' =>
          rcases Broker.publish_result hh.1 hlt p q o u a' k' wo so with ⟨-, e, -⟩ | ⟨-, pub, hpub, n', -, -, hack, hev⟩
          · simp [Broker.step, e, brokerOut, messagesFor] at he
          · simp only [Broker.step, hpub, Res.map_ok, brokerOut, hack, messagesFor_append] at he
            have hackno : ∀ m ∈ messagesFor s (match (if o.flag (str "acknowledge") then some (.published q n', p) else none : Option (Msg × Nat)) with
                | some (m, s) => [(s, m)] | none => []), m = .published q n' := by
              intro m hm
              have := mem_messagesFor.1 hm
              split at this
              · rename_i heq
                split at heq
                · cases heq; simp at this; exact this.2
                · cases heq
              · cases this
            have hcase : ∀ evs : List Msg, (∀ m ∈ evs, ∃ i' n d a k, m = .event i' n d a k ∧ ∃ t, Broker.current l.sys.bh s t = some i') →
                ∀ acks : List Msg, (∀ m ∈ acks, m = .published q n') → evs ++ acks = pre ++ .event i n d a k :: post → opened F i (l.inbox s ++ pre) := by
              intro evs he1 acks he2 e
              have hin : Msg.event i n d a k ∈ evs ++ acks := by rw [e]; simp
              have hpre : ∀ m ∈ pre, ∀ q, m ≠ .unsubscribed q := by
                intro m hm q' hmq
                subst hmq
                have : Msg.unsubscribed q' ∈ evs ++ acks := by rw [e]; exact List.mem_append.2 (.inl hm)
                rcases List.mem_append.1 this with h | h
                · obtain ⟨_, _, _, _, _, h, -⟩ := he1 _ h; cases h
                · cases he2 _ h
              rcases List.mem_append.1 hin with h | h
              · obtain ⟨_, _, _, _, _, h, t, hcur⟩ := he1 _ h
                cases h
                exact (i1 t hcur).append fun q hq' => absurd rfl (hpre _ hq' q)
              · cases he2 _ h
            refine hcase _ ?_ _ hackno he
            intro m hm
            rcases hev with ⟨e1, -, -⟩ | ⟨t, j, -, e1, -, -, hmem, -⟩
            · rw [e1] at hm; simp [messagesFor] at hm
            · rw [e1] at hm
              have := mem_messagesFor.1 hm
              simp only [List.mem_map, Prod.mk.injEq] at this
              obtain ⟨s', h3, rfl, rfl⟩ := this
              exact ⟨_, _, _, _, _, rfl, t, (hmem s').1 h3⟩
        case subscribe q o t =>
          rcases subscribed_of (w := w) (b := l.sys.broker) (s := p) (q := q) (o := o) (t := t) with e | ⟨j, e⟩
          · rw [e] at he; simp [brokerOut, messagesFor] at he
          · have : Msg.event i n d a k ∈ messagesFor s (brokerOut (Broker.step w l.sys.broker (.receive p (.subscribe q o t))).2) := by rw [he]; simp
            rw [e] at this
            have := mem_messagesFor.1 this
            simp [brokerOut] at this
        case unsubscribe q g =>
          have : Msg.event i n d a k ∈ messagesFor s (brokerOut (Broker.step w l.sys.broker (.receive p (.unsubscribe q g))).2) := by rw [he]; simp
          have hu : (Broker.step w l.sys.broker (.receive p (.unsubscribe q g))).2 = .err ∨
              (Broker.step w l.sys.broker (.receive p (.unsubscribe q g))).2 = .panic ∨
              (Broker.step w l.sys.broker (.receive p (.unsubscribe q g))).2 = .ok (.msg (.unsubscribed q) p) := by
            simp only [Broker.step, Broker.receive, Broker.unsubscribe]
            repeat' (first | exact .inl rfl | exact .inr (.inl rfl) | exact .inr (.inr rfl) | split)
          rcases hu with e | e | e <;> rw [e] at this <;> have := mem_messagesFor.1 this <;> simp [brokerOut] at this
      simp only [Log.inbox] at i1 i2 hsp ⊢
      rw [← List.append_assoc]
      refine ⟨fun t h => ?_, fun pre post n d a k => event_split i2 hsp⟩
      rcases current_before h with ⟨hold, hnu⟩ | ⟨q, o, q', s', rfl, hr⟩
      · refine (i1 t hold).append fun q hq' hqi => ?_
        obtain ⟨ev, other, e, he, ho⟩ := broker_caused hx hlt s p m wo so op h2
        rw [e] at hq'
        have hcz : Caused w l.sys.sent s p m (.unsubscribed q) := by
          rcases List.mem_append.1 hq' with hm | hm
          · rcases he with rfl | ⟨e, rfl, -, he⟩
            · cases hm
            · cases List.mem_singleton.1 hm; exact he
          · rcases ho with rfl | ⟨e, rfl, -, he⟩
            · cases hm
            · cases List.mem_singleton.1 hm; exact he
        obtain ⟨rfl, g, rfl⟩ := hcz
        have hgi := hq q g i (hmF rfl) hqi
        subst hgi
        simp only [callB, Option.some.injEq] at h2
        subst h2
        have hu : (Broker.step w l.sys.broker (.receive p (.unsubscribe q g))).2 = .err ∨
            (Broker.step w l.sys.broker (.receive p (.unsubscribe q g))).2 = .panic ∨
            (Broker.step w l.sys.broker (.receive p (.unsubscribe q g))).2 = .ok (.msg (.unsubscribed q) p) := by
          simp only [Broker.step, Broker.receive, Broker.unsubscribe]
          repeat' (first | exact .inl rfl | exact .inr (.inl rfl) | exact .inr (.inr rfl) | split)
        have hmm : Msg.unsubscribed q ∈ messagesFor p (brokerOut (Broker.step w l.sys.broker (.receive p (.unsubscribe q g))).2) := by rw [e]; exact hq'
        rcases hu with e' | e' | e'
        · rw [e'] at hmm; cases hmm
        · rw [e'] at hmm; cases hmm
        · exact hnu q _ rfl e'
      · have : (s', Msg.subscribed q' i) ∈ brokerOut (Broker.step w l.sys.broker (.receive s (.subscribe q o t))).2 := by rw [hr]; simp [brokerOut]
        rcases subscribed_of (w := w) (b := l.sys.broker) (s := s) (q := q) (o := o) (t := t) with e | ⟨j, e⟩
        · rw [e] at hr; cases hr
        · rw [e] at hr
          cases hr
          rw [e]
          refine ⟨l.got s ++ l.sys.down s, q, [], ?_, by simp⟩
          simp [brokerOut, messagesFor]

/-- **C113** Before every EVENT for a subscription that a client is sent, it was sent a SUBSCRIBED with that ID, and between the two no answer to
an UNSUBSCRIBE for that ID: no EVENTs before SUBSCRIBED, none from UNSUBSCRIBED to the next SUBSCRIBED.  (If the client did not use one
request ID for UNSUBSCRIBEs of different subscriptions.) -/
theorem C113_events_while_subscribed {l : Log} (h : Log.Reach w l) (hb : l.sys.bh.length ≤ 2 ^ 53) (s : Nat)
    (hq : ∀ q i j, .unsubscribe q i ∈ l.sys.sent s → .unsubscribe q j ∈ l.sys.sent s → i = j)
    (pre post : List Msg) (i n : Nat) (d : GoMap) (a : GoSlice) (k : GoMap) (he : l.inbox s = pre ++ .event i n d a k :: post) :
    ∃ earlier r between, pre = earlier ++ .subscribed r i :: between ∧ ∀ q, .unsubscribed q ∈ between → .unsubscribe q i ∉ l.sys.sent s :=
  (quiet h hb (l.sys.sent s) s i (fun _ h => h) hq).2 pre post n d a k he

/-- Client 1 subscribes to "t", gets an EVENT, unsubscribes (an EVENT is sent to it before the UNSUBSCRIBED), subscribes again and gets another. -/
def onOff : List Action :=
  three ++ does 1 (.subscribe 1 none (str "t")) ++ [.deliver 1] ++ does 2 (.publish 1 none (str "t") none none) ++ [.send 1 [] (.unsubscribe 2 1)] ++
  does 2 (.publish 2 none (str "t") none none) ++ [.route 1 [] [] 0] ++ does 2 (.publish 3 none (str "t") none none) ++ [.deliver 1] ++
  does 1 (.subscribe 3 none (str "t")) ++ does 2 (.publish 4 none (str "t") none none)

example : ∃ l, Log.Reach Dealer.noWild l ∧ l.sys.bh.length ≤ 2 ^ 53 ∧
    (∀ q i j, .unsubscribe q i ∈ l.sys.sent 1 → .unsubscribe q j ∈ l.sys.sent 1 → i = j) ∧
    ∃ n1 n2 n3 d1 d2 d3, l.inbox 1 = [.subscribed 1 1, .event 1 n1 d1 none none, .event 1 n2 d2 none none, .unsubscribed 2, .subscribed 3 5,
      .event 5 n3 d3 none none] := by
  refine ⟨logged onOff, reach_logged _, by decide +kernel, ?_, _, _, _, _, _, _, rfl⟩
  have : (logged onOff).sys.sent 1 = [.subscribe 3 none (str "t"), .unsubscribe 2 1, .subscribe 1 none (str "t")] := rfl
  rw [this]
  intro q i j h1 h2
  simp at h1 h2
  rw [h1.2, h2.2]

/-! ### C114 -/

theorem owner_before {op : Dealer.Op} {r : Res Dealer.Out} {h : List Dealer.Event} {s g : Nat} {p : Str}
    (hc : Dealer.owner (⟨op, r⟩ :: h) p = some (s, g)) :
    (Dealer.owner h p = some (s, g) ∧ ∀ q wo rnd out, op = .receive s (.unregister q g) wo rnd → r ≠ .ok out) ∨
      ∃ q o wo rnd q' s', op = .receive s (.register q o p) wo rnd ∧ r = .ok (.msg (.registered q' g) s') := by
  unfold Dealer.owner at hc
  split at hc
  · cases ‹_ :: _ = [] ›
  · rename_i heq
    injection heq with h4 h5
    injection h4 with h4 h6
    subst h4 h5 h6
    split at hc
    · rename_i hst
      subst hst
      cases hc
      exact .inr ⟨_, _, _, _, _, _, rfl, rfl⟩
    · exact .inl ⟨hc, fun _ _ _ _ h => by cases h⟩
  · rename_i heq
    injection heq with h4 h5
    injection h4 with h4 h6
    subst h4 h5 h6
    split at hc
    · cases hc
    · rename_i hst
      refine .inl ⟨hc, fun q _ _ out h => ?_⟩
      cases h
      exact absurd hc hst
  · rename_i heq
    injection heq with h4 h5
    injection h4 with h4 h6
    subst h4 h5 h6
    split at hc
    · cases hc
    · exact .inl ⟨hc, fun _ _ _ _ h => by cases h⟩
  · rename_i hne1 hne2 hne3 heq
    injection heq with h4 h5
    subst h4 h5
    refine .inl ⟨hc, fun q _ _ out h1 h2 => ?_⟩
    subst h1 h2
    exact hne2 _ _ _ _ _ _ rfl

/-- In `msgs` the last REGISTERED for `g` has not been followed by the answer to an UNREGISTER for `g`. -/
def openedR (F : List Msg) (g : Nat) (msgs : List Msg) : Prop :=
  ∃ pre r post, msgs = pre ++ .registered r g :: post ∧ ∀ q, .unregistered q ∈ post → .unregister q g ∉ F

theorem openedR.append {F : List Msg} {i : Nat} {msgs new : List Msg} (h : openedR F i msgs) (hn : ∀ q, .unregistered q ∈ new → .unregister q i ∉ F) :
    openedR F i (msgs ++ new) := by
  obtain ⟨pre, r, post, rfl, h1⟩ := h
  refine ⟨pre, r, post ++ new, by simp, fun q hq => ?_⟩
  rcases List.mem_append.1 hq with hq | hq
  · exact h1 q hq
  · exact hn q hq

theorem invocation_split {F : List Msg} {g : Nat} {msgs new pre post : List Msg} {n : Nat} {d : GoMap} {a : GoSlice} {k : GoMap} {bin : Bin}
    (old : ∀ pre post n d a k bin, msgs = pre ++ .invocation n g d a k bin :: post → openedR F g pre)
    (hn : ∀ pre post n d a k bin, new = pre ++ .invocation n g d a k bin :: post → openedR F g (msgs ++ pre))
    (h : msgs ++ new = pre ++ .invocation n g d a k bin :: post) : openedR F g pre := by
  rcases List.append_eq_append_iff.1 h with ⟨z, h1, h2⟩ | ⟨z, h1, h2⟩
  · rw [h1]; exact hn _ _ _ _ _ _ _ h2
  · cases z with
    | nil =>
      rw [List.append_nil] at h1
      rw [List.nil_append] at h2
      have := hn [] _ _ _ _ _ _ h2.symm
      rw [List.append_nil, h1] at this
      exact this
    | cons x z =>
      injection h2 with h3 h4
      subst h3
      exact old _ _ _ _ _ _ _ h1

theorem quietR {l : Log} (h : Log.Reach w l) (hb : l.sys.bh.length ≤ 2 ^ 53) (hd : l.sys.dh.length ≤ 2 ^ 53) (F : Nat → List Msg) (s g : Nat)
    (hF : ∀ s, ∀ m ∈ l.sys.sent s, m ∈ F s) (hq : ∀ q i j, .unregister q i ∈ F s → .unregister q j ∈ F s → i = j)
    (hsingle : ∀ r o p, .register r o p ∈ F s → ∀ s' r' o', .register r' o' p ∈ F s' → o'.text (str "invoke") = [] ∨ o'.text (str "invoke") = str "single") :
    (∀ p, Dealer.owner l.sys.dh p = some (s, g) → openedR (F s) g (l.inbox s)) ∧
    ∀ pre post n d a k bin, l.inbox s = pre ++ .invocation n g d a k bin :: post → openedR (F s) g pre := by
  induction h with
  | new =>
    refine ⟨fun t h => ?_, fun pre post n d a k bin h => ?_⟩
    · cases h
    · simp [Log.new, Sys.new, Log.inbox] at h
  | act ac hl ha ih =>
    rename_i l l'
    have hc := log_change ha
    have hlen := change_grows hc
    have hF' : ∀ s, ∀ m ∈ l.sys.sent s, m ∈ F s := fun s m hm => hF s m ((hlen.2.2 s).subset hm)
    obtain ⟨i1, i2⟩ := ih (Nat.le_trans hlen.1 hb) (Nat.le_trans hlen.2.1 hd) hF'
    have hx := log_sys hl
    have hh := reach_hist hx
    have hS := reach_sent hx
    cases log_step ha with
    | admin bop dop j h1 h2 h3 =>
      refine ⟨fun t h => ?_, i2⟩
      rcases owner_before h with ⟨h, -⟩ | ⟨_, _, _, _, _, _, rfl, -⟩
      · exact i1 t h
      · exact h2.elim
    | send p data m c h1 => exact ⟨i1, i2⟩
    | ignore p m rest h1 h2 h3 => exact ⟨i1, i2⟩
    | deliver p m rest c h1 =>
      rw [inbox_deliver c h1]
      exact ⟨i1, i2⟩
    | broker p m rest wo so op h1 h2 =>
      have hlt : l.sys.bh.length < 2 ^ 53 := by simp only [List.length_cons] at hb; exact hb
      have hno : ∀ m' ∈ messagesFor s (brokerOut (Broker.step w l.sys.broker op).2), fromBroker m' :=
        fun m' hm' => broker_from hh.1 hlt _ (mem_messagesFor.1 hm')
      simp only [Log.inbox] at i1 i2 ⊢
      rw [← List.append_assoc]
      refine ⟨fun t h => (i1 t h).append fun q hq' => (hno _ hq').elim, fun pre post n d a k bin => invocation_split i2 fun pre post n d a k bin he => ?_⟩
      exact (hno (.invocation n g d a k bin) (by rw [he]; simp)).elim
    | dealer p m rest wo rnd h1 h2 h3 =>
      have hlt : l.sys.dh.length < 2 ^ 53 := by simp only [List.length_cons] at hd; exact hd
      have hmF : m ∈ F p := hF' p m (hS.up p m (by rw [h1]; exact .head _))
      have hone : ∀ m', m' ∈ messagesFor s (dealerOut (Dealer.step w l.sys.dealer (.receive p m wo rnd)).2) →
          (Dealer.step w l.sys.dealer (.receive p m wo rnd)).2 = .ok (.msg m' s) :=
        fun m' hm' => dealer_msg (e := ⟨.receive p m wo rnd, _⟩) (mem_messagesFor.1 hm')
      have hsp : ∀ pre post n d a k bin, messagesFor s (dealerOut (Dealer.step w l.sys.dealer (.receive p m wo rnd)).2) =
          pre ++ .invocation n g d a k bin :: post → openedR (F s) g (l.inbox s ++ pre) := by
        intro pre post n d a k bin he
        have hres := hone (.invocation n g d a k bin) (by rw [he]; simp)
        have hpre : pre = [] := by
          rw [hres] at he
          simp only [dealerOut, messagesFor_one, if_true] at he
          cases pre with
          | nil => rfl
          | cons x pre => injection he with e1 e2; simp at e2
        subst hpre
        rw [List.append_nil]
        obtain ⟨s', m', wo', rnd', e1, -, e2⟩ := dealer_answer hres
        injection e1 with e1 e3 e4 e5
        subst e1 e3 e4 e5
        obtain ⟨r, o, u, a0, k0, bin0, rfl⟩ := e2 _ _ _ _ _ _ rfl
        obtain ⟨pr, ⟨e, he', hreg⟩, -⟩ := Dealer.C54_registered_partial hh.2 hlt _ _ _ _ _ _ _ _ _ _ _ _ _ _ _ _ hres
        have hsg : Dealer.Single pr l.sys.dh := by
          obtain ⟨q, o', wo', rnd', q', s'', rfl⟩ := hreg
          intro e he s q o wo rnd hop
          exact hsingle _ _ _ (hF' _ _ (hS.dh _ he' _ _ _ _ rfl)) s q o (hF' _ _ (hS.dh _ he _ _ _ _ hop))
        exact i1 pr (Dealer.C52_only_owner hh.2 hlt pr hsg _ _ _ _ _ _ _ _ _ _ _ _ _ _ _ _ hres ⟨e, he', s, hreg⟩)
      simp only [Log.inbox] at i1 i2 hsp ⊢
      rw [← List.append_assoc]
      refine ⟨fun t h => ?_, fun pre post n d a k bin => invocation_split i2 hsp⟩
      rcases owner_before h with ⟨hold, hnu⟩ | ⟨q, o, wo', rnd', q', s', hop, hr⟩
      · refine (i1 t hold).append fun q hq' hqi => ?_
        have hres := hone _ hq'
        rcases dealer_caused hx hlt s p m wo rnd with e | ⟨e', e, -, hcz⟩
        · rw [e] at hq'; cases hq'
        · rw [e] at hq'
          cases List.mem_singleton.1 hq'
          obtain ⟨rfl, g', rfl⟩ := hcz
          have hgi := hq q g' g hmF hqi
          subst hgi
          exact hnu q wo rnd _ rfl hres
      · injection hop with e1 e3 e4 e5
        subst e1 e3
        have := dealer_answer hr
        obtain ⟨s'', m', _, _, e1, e2, -⟩ := this
        injection e1 with e1 e3 e4 e5
        subst e1 e3
        obtain ⟨rfl, _⟩ := e2 _ _ rfl
        rw [hr]
        exact ⟨l.got p ++ l.sys.down p, q', [], by simp [dealerOut, messagesFor], by simp⟩

/-- **C114** Before every INVOCATION for a registration that a client is sent, it was sent a REGISTERED with that ID, and between the two no
answer to an UNREGISTER for that ID.  (If nobody asks for a shared registration of a procedure that the client registers, and the client
did not use one request ID for UNREGISTERs of different registrations.  `C114_shared` shows what goes wrong otherwise.) -/
theorem C114_invocations_while_registered_partial {l : Log} (h : Log.Reach w l) (hb : l.sys.bh.length ≤ 2 ^ 53) (hd : l.sys.dh.length ≤ 2 ^ 53) (s : Nat)
    (hq : ∀ q i j, .unregister q i ∈ l.sys.sent s → .unregister q j ∈ l.sys.sent s → i = j)
    (hsingle : ∀ r o p, .register r o p ∈ l.sys.sent s → ∀ s' r' o', .register r' o' p ∈ l.sys.sent s' →
      o'.text (str "invoke") = [] ∨ o'.text (str "invoke") = str "single")
    (pre post : List Msg) (g n : Nat) (d : GoMap) (a : GoSlice) (k : GoMap) (bin : Bin) (he : l.inbox s = pre ++ .invocation n g d a k bin :: post) :
    ∃ earlier r between, pre = earlier ++ .registered r g :: between ∧ ∀ q, .unregistered q ∈ between → .unregister q g ∉ l.sys.sent s :=
  (quietR h hb hd l.sys.sent s g (fun _ _ h => h) hq hsingle).2 pre post n d a k bin he

/-- Client 2 registers "p", is called, unregisters; client 3 registers "p" and is called. -/
def handOver : List Action :=
  three ++ does 2 (.register 1 none (str "p")) ++ does 1 (.call 1 none (str "p") none none Bin.none) ++ does 2 (.unregister 2 1) ++
  does 3 (.register 1 none (str "p")) ++ does 1 (.call 2 none (str "p") none none Bin.none)

example : ∃ l, Log.Reach Dealer.noWild l ∧ l.sys.bh.length ≤ 2 ^ 53 ∧ l.sys.dh.length ≤ 2 ^ 53 ∧
    (∀ s, ∀ m ∈ l.sys.sent s, ∀ r o p, m = .register r o p → o = none) ∧
    (∃ n d, l.inbox 2 = [.registered 1 1, .invocation n 1 d none none Bin.none, .unregistered 2]) ∧
    ∃ n d g, l.inbox 3 = [.registered 1 g, .invocation n g d none none Bin.none] := by
  refine ⟨logged handOver, reach_logged _, by decide +kernel, by decide +kernel, ?_, ⟨_, _, rfl⟩, ⟨_, _, _, rfl⟩⟩
  intro s m hm
  have hj := (reach_att (log_sys (reach_logged handOver)) (by decide +kernel)).sj s (List.ne_nil_of_mem hm)
  have hj' : s ∈ [3, 2, 1] := hj
  simp only [List.mem_cons, List.not_mem_nil, or_false] at hj'
  rcases hj' with rfl | rfl | rfl
  · have : (logged handOver).sys.sent 3 = [.register 1 none (str "p")] := rfl
    rw [this] at hm
    simp at hm
    subst hm
    rintro r o p h; cases h; rfl
  · have : (logged handOver).sys.sent 2 = [.unregister 2 1, .register 1 none (str "p")] := rfl
    rw [this] at hm
    simp at hm
    rcases hm with rfl | rfl
    · rintro r o p h; cases h
    · rintro r o p h; cases h; rfl
  · have : (logged handOver).sys.sent 1 = [.call 2 none (str "p") none none Bin.none, .call 1 none (str "p") none none Bin.none] := rfl
    rw [this] at hm
    simp at hm
    rcases hm with rfl | rfl <;> (rintro r o p h; cases h)

/-- Clients 2 and 3 share "p"; 2 unregisters; 1 calls. -/
def halfShared : List Action :=
  three ++ does 2 (registerFirst 1) ++ does 3 (registerFirst 1) ++ does 2 (.unregister 2 1) ++ does 1 (.call 7 none (str "p") none none Bin.none)

/-- **C114** The full statement fails for shared registrations: a client is sent an INVOCATION after its UNREGISTER was confirmed. -/
theorem C114_shared : ∃ l, Log.Reach Dealer.noWild l ∧ l.sys.sent 2 = [.unregister 2 1, registerFirst 1] ∧
    ∃ n d, l.inbox 2 = [.registered 1 1, .unregistered 2, .invocation n 1 d none none Bin.none] :=
  ⟨logged halfShared, reach_logged _, rfl, _, _, rfl⟩

/-! ### C109 for exact subscriptions -/

theorem policy_mem {h : List Broker.Event} {i : Nat} {p : Str} (hp : Broker.policy h i = some p) :
    ∃ e ∈ h, ∃ s q o t q' s', e = ⟨.receive s (.subscribe q o t), .ok (.msg (.subscribed q' i) s')⟩ ∧ p = o.text (str "match") := by
  induction h with
  | nil => cases hp
  | cons e h ih =>
    unfold Broker.policy at hp
    split at hp
    · cases ‹_ :: _ = [] ›
    · rename_i heq
      injection heq with h4 h5
      subst h4 h5
      split at hp
      · rename_i hq
        cases hp
        obtain ⟨e, he, h⟩ := ih hq
        exact ⟨e, .tail _ he, h⟩
      · split at hp
        · rename_i e
          cases hp
          subst e
          exact ⟨_, .head _, _, _, _, _, _, _, rfl, rfl⟩
        · cases hp
    · rename_i heq
      injection heq with h4 h5
      subst h4 h5
      obtain ⟨e, he, h⟩ := ih hp
      exact ⟨e, .tail _ he, h⟩

/-- If nobody subscribes to `t` as a pattern, EVENTs for the subscription of `t` are sent for PUBLISHes to `t` only. -/
theorem event_topic {l : Log} (h : Log.Reach w l) (hb : l.sys.bh.length < 2 ^ 53) {s i : Nat} {t : Str}
    (hc : ∃ e ∈ l.sys.bh, ∃ s', Broker.subscribedAs s' t i e)
    (hx : ∀ s' r o, .subscribe r o t ∈ l.sys.sent s' → o.text (str "match") ≠ str "prefix" ∧ o.text (str "match") ≠ str "wildcard")
    {p q : Nat} {o : GoMap} {u : Str} {a : GoSlice} {k : GoMap} {wo : List Str} {so : List Nat} {n : Nat} {d : GoMap} {a' : GoSlice} {k' : GoMap}
    (hm : (s, .event i n d a' k') ∈ brokerOut (Broker.step w l.sys.broker (.publish p q o u a k wo so)).2) : u = t := by
  have hh := (reach_hist (log_sys h)).1
  have hS := reach_sent (log_sys h)
  have hids := (Broker.sub_ids hh (Nat.le_of_lt hb)).2
  cases hres : (Broker.step w l.sys.broker (.publish p q o u a k wo so)).2 with
  | err => rw [hres] at hm; cases hm
  | panic => rw [hres] at hm; cases hm
  | ok v =>
    rw [hres] at hm
    cases v with
    | unit => cases hm
    | bool b => cases hm
    | msg m s' =>
      simp only [Broker.step] at hres
      cases hr : (Broker.publish w l.sys.broker p q o u a k wo so).2 <;> rw [hr] at hres <;> cases hres
    | pub pub =>
      have hin : s ∈ pub.recipients ∧ pub.event = some (.event i n d a' k') := by
        simp only [brokerOut, List.mem_append] at hm
        rcases hm with hm | hm
        · cases he : pub.event with
          | none => rw [he] at hm; cases hm
          | some m =>
            rw [he] at hm
            simp only [List.mem_map, Prod.mk.injEq] at hm
            obtain ⟨_, h1, rfl, rfl⟩ := hm
            exact ⟨h1, rfl⟩
        · exfalso
          rcases Broker.publish_result hh hb p q o u a k wo so with ⟨-, e, -⟩ | ⟨-, pub', hpub, n, -, -, hack, -⟩
          · simp only [Broker.step, e] at hres; cases hres
          · simp only [Broker.step, hpub, Res.map_ok, Res.ok.injEq, Broker.Out.pub.injEq] at hres
            subst hres
            rw [hack] at hm
            by_cases hf : o.flag (str "acknowledge") = true
            · rw [if_pos hf] at hm; simp at hm
            · rw [if_neg hf] at hm; simp at hm
      obtain ⟨-, i', n', d', t', h1, hcur, hcov⟩ := Broker.C71_recipients_partial hh hb p q o u a k wo so pub hres s hin.1
      rw [hin.2] at h1
      cases h1
      obtain ⟨e0, he0, s0, hs0⟩ := hc
      obtain ⟨e, he, hs⟩ := Broker.current_mem hcur
      have htt := hids e he e0 he0 _ _ _ _ _ hs hs0
      subst htt
      have hpol : ∀ pol, Broker.policy l.sys.bh i = some pol → pol ≠ str "prefix" ∧ pol ≠ str "wildcard" := by
        intro pol hpol
        obtain ⟨e1, he1, s1, q1, o1, t1, q1', s1', rfl, rfl⟩ := policy_mem hpol
        have := hids _ he1 e0 he0 s1 t1 s0 _ i ⟨_, _, _, _, rfl⟩ hs0
        subst this
        exact hx s1 q1 o1 (hS.bh _ he1 _ _ rfl)
      rcases hcov with h | ⟨-, h⟩ | ⟨-, h⟩
      · exact h.symm
      · exact absurd rfl (hpol _ h).1
      · exact absurd rfl (hpol _ h).2

/-- Only routing sends messages. -/
theorem inbox_still {l z : Log} {a : Action} (h : l.act w a = some z) (ha : ∀ p wo so rnd, a ≠ .route p wo so rnd) (s : Nat) : z.inbox s = l.inbox s := by
  obtain ⟨y, h1, h2⟩ := Option.map_eq_some_iff.1 h
  subst h2
  cases a <;> simp only [Sys.act] at h1
  case join d =>
    split at h1
    · cases h1
    · obtain ⟨-, rfl⟩ := onDealer_some h1; rfl
  case leave s o o' => obtain ⟨-, rfl⟩ := onDealer_some h1; rfl
  case disclose p c => obtain ⟨-, rfl⟩ := onDealer_some h1; rfl
  case send p data m =>
    split at h1
    · split at h1
      · cases h1; rfl
      · cases h1
    · cases h1
  case deliver p =>
    split at h1
    · cases h1
    · rename_i m rest hd
      cases h1
      simp only [hd, List.take_succ_cons, List.take_zero]
      exact inbox_deliver _ hd s
  case route p wo so rnd => exact absurd rfl (ha p wo so rnd)

/-- Only PUBLISHes lead to EVENTs. -/
theorem route_other {l z : Log} {p : Nat} {m : Msg} {rest : List Msg} {wo : List Str} {so : List Nat} {rnd : Nat}
    (hup : l.sys.up p = m :: rest) (hm : ∀ q o t a k, m ≠ .publish q o t a k) (ha : l.act w (.route p wo so rnd) = some z) (s : Nat) :
    ∃ ms, z.inbox s = l.inbox s ++ ms ∧ ∀ i n d a k, .event i n d a k ∉ ms := by
  obtain ⟨y, h1, h2⟩ := Option.map_eq_some_iff.1 ha
  subst h2
  simp only [Sys.act, hup] at h1
  have key : ((({ l.sys with up := upd l.sys.up p rest } : Sys).onDealer w (.receive p m wo rnd)).map fun y =>
      y.post (dealerOut (Dealer.step w l.sys.dealer (.receive p m wo rnd)).2)) = some y →
      ∃ ms, Log.inbox ⟨y, l.got⟩ s = l.inbox s ++ ms ∧ ∀ i n d a k, .event i n d a k ∉ ms := by
    intro h1
    obtain ⟨x, hx, rfl⟩ := Option.map_eq_some_iff.1 h1
    obtain ⟨-, rfl⟩ := onDealer_some hx
    exact ⟨_, (List.append_assoc ..).symm, fun i n d a k hin => (dealer_from _ _ (mem_messagesFor.1 hin)).elim⟩
  cases m <;> simp only [Sys.handle] at h1
  case publish q o t a k => exact absurd rfl (hm q o t a k)
  case subscribe q o t =>
    cases h1
    refine ⟨_, (List.append_assoc ..).symm, fun i n d a k hin => ?_⟩
    have hin := mem_messagesFor.1 hin
    rcases subscribed_of (w := w) (b := l.sys.broker) (s := p) (q := q) (o := o) (t := t) with e | ⟨j, e⟩ <;>
      simp only [e] at hin <;> simp [brokerOut] at hin
  case unsubscribe q g =>
    cases h1
    refine ⟨_, (List.append_assoc ..).symm, fun i n d a k hin => ?_⟩
    have hin := mem_messagesFor.1 hin
    have hu : (Broker.step w l.sys.broker (.receive p (.unsubscribe q g))).2 = .err ∨
        (Broker.step w l.sys.broker (.receive p (.unsubscribe q g))).2 = .panic ∨
        (Broker.step w l.sys.broker (.receive p (.unsubscribe q g))).2 = .ok (.msg (.unsubscribed q) p) := by
      simp only [Broker.step, Broker.receive, Broker.unsubscribe]
      repeat' (first | exact .inl rfl | exact .inr (.inl rfl) | exact .inr (.inr rfl) | split)
    rcases hu with e | e | e <;> simp only [e] at hin <;> simp [brokerOut] at hin
  all_goals first
    | exact key h1
    | (cases h1; exact ⟨[], (List.append_nil _).symm, fun _ _ _ _ _ h => by cases h⟩)

/-- **C109** If nobody subscribes to `t` as a pattern, the EVENTs a subscriber gets for its subscription from then on are exactly the publications to
`t` that the router takes, in that order, with their args and kwargs: none is missing, none comes twice, and there is no other. -/
theorem C109_exactly {l l' : Log} (h : Log.Reach w l) (as : List Action) (ha : l.run w as = some l') (hb : l'.sys.bh.length ≤ 2 ^ 53)
    (s r i : Nat) (t : Str) (hsub : .subscribed r i ∈ l.inbox s) (hr : ∀ o t', .subscribe r o t' ∈ l'.sys.sent s → t' = t)
    (hx : ∀ s' r o, .subscribe r o t ∈ l'.sys.sent s' → o.text (str "match") ≠ str "prefix" ∧ o.text (str "match") ≠ str "wildcard")
    (hu : ∀ q, .unsubscribe q i ∉ l'.sys.sent s) (hs : Stays l'.sys s)
    (hp : ∀ q ∈ l.taken w as, publishedTo t q.2 ≠ none → Stays l'.sys q.1) :
    ∃ new, l'.inbox s = l.inbox s ++ new ∧ new.filterMap (eventFor i) = (l.taken w as).filterMap fun q => publishedTo t q.2 := by
  induction as generalizing l with
  | nil => cases ha; exact ⟨[], by simp, rfl⟩
  | cons a as ih =>
    obtain ⟨z, h1, h2⟩ := Option.bind_eq_some_iff.1 ha
    simp only [Log.taken, h1] at hp ⊢
    obtain ⟨g1, g2, g3, g4⟩ := run_grows as h2
    obtain ⟨new, e1, e2⟩ := ih (h.act a h1) h2 ((inbox_step h1 s).subset hsub) (fun q hq => hp q (List.mem_append.2 (.inr hq)))
    obtain ⟨c1, c2⟩ := change_hist (log_change h1)
    have c3 := (change_grows (log_change h1)).2.2
    have hz : ∀ {p}, Stays l'.sys p → Stays l.sys p := fun h =>
      ⟨fun e he => h.1 e (g1.subset (c1.subset he)), fun e he => h.2 e (g2.subset (c2.subset he))⟩
    have hb0 : l.sys.bh.length ≤ 2 ^ 53 := Nat.le_trans (Nat.le_trans c1.length_le g1.length_le) hb
    have hevent : ∃ e ∈ l.sys.bh, ∃ s', Broker.subscribedAs s' t i e := by
      obtain ⟨o, t', he⟩ := subscribed_event h hb0 hsub
      have : t' = t := hr o t' ((g3 s).subset ((c3 s).subset ((reach_sent (log_sys h)).bh _ he _ _ rfl)))
      subst this
      exact ⟨_, he, s, _, _, _, _, rfl⟩
    have other : ∀ {pre : List (Nat × Msg)}, pre.filterMap (fun q => publishedTo t q.2) = [] → (∃ m, l.inbox s ++ m = z.inbox s ∧ m.filterMap (eventFor i) = []) →
        ∃ new, l'.inbox s = l.inbox s ++ new ∧ new.filterMap (eventFor i) = (pre ++ z.taken w as).filterMap fun q => publishedTo t q.2 := by
      rintro pre hpre ⟨m, hm, hm'⟩
      refine ⟨m ++ new, by rw [e1, ← hm, List.append_assoc], ?_⟩
      rw [List.filterMap_append, List.filterMap_append, hpre, hm', List.nil_append, List.nil_append, e2]
    have none_of : ∀ {ms : List Msg}, (∀ n d a k, .event i n d a k ∉ ms) → ms.filterMap (eventFor i) = [] := by
      intro ms hms
      rw [List.filterMap_eq_nil_iff]
      intro m hm
      cases m <;> simp only [eventFor]
      rename_i i' n d a k
      by_cases e : i' = i
      · subst e; exact absurd hm (hms _ _ _ _)
      · rw [if_neg e]
    have step := log_step h1
    cases a with
    | route p wo so rnd =>
      simp only at hp ⊢
      cases hup : l.sys.up p with
      | nil => simp [Log.act, Sys.act, hup] at h1
      | cons m rest =>
        rw [hup] at hp
        simp only [List.take_succ_cons, List.take_zero, List.map_cons, List.map_nil] at hp ⊢
        cases hm : publishedTo t m with
        | none =>
          refine other (by simp [hm]) ?_
          -- what is sent is not an EVENT for `i`
          cases m
          case publish q o u a k =>
            obtain ⟨e3, e4⟩ := route_publish hup h1
            refine ⟨_, (e3 s).symm, none_of fun n d a' k' hin => ?_⟩
            have hlt : l.sys.bh.length < 2 ^ 53 := by have := g1.length_le; omega
            have := event_topic h hlt hevent (fun s' r o hm => hx s' r o ((g3 s').subset ((c3 s').subset hm))) (mem_messagesFor.1 hin)
            subst this
            simp [publishedTo] at hm
          all_goals
            obtain ⟨ms, hms, hno⟩ := route_other hup (by intros; nofun) h1 s
            exact ⟨ms, hms.symm, none_of fun n d a' k' hin => hno _ _ _ _ _ hin⟩
        | some c =>
          cases m <;> simp only [publishedTo, reduceCtorEq] at hm
          rename_i q po u a k
          split at hm
          · rename_i hut
            subst hut
            cases hm
            have hlen : l.sys.bh.length < 2 ^ 53 := by
              have hg := g1.length_le
              rw [(route_publish hup h1).2] at hg
              omega
            have hst := hp (p, .publish q po u a k) (.head _) (by simp [publishedTo])
            obtain ⟨n, d, e3⟩ := C109_no_event_missed h hlen s r i u hsub (fun o t' hm => hr o t' ((g3 s).subset ((c3 s).subset hm)))
              (fun q hm => hu q ((g3 s).subset ((c3 s).subset hm))) (hz hs) p q (hz hst) po a k rest wo so rnd hup h1
            refine ⟨(.event i n d a k :: if p = s ∧ po.flag (str "acknowledge") = true then [.published q n] else []) ++ new, ?_, ?_⟩
            · rw [e1, e3, List.append_assoc]
            · rw [List.filterMap_append, List.filterMap_append, e2]
              by_cases hpp : p = s ∧ po.flag (str "acknowledge") = true
              · rw [if_pos hpp]; simp [publishedTo, eventFor]
              · rw [if_neg hpp]; simp [publishedTo, eventFor]
          · cases hm
    | join d => exact other rfl ⟨[], by rw [List.append_nil, inbox_still h1 (by intros; nofun)], rfl⟩
    | leave s0 o o' => exact other rfl ⟨[], by rw [List.append_nil, inbox_still h1 (by intros; nofun)], rfl⟩
    | disclose p c => exact other rfl ⟨[], by rw [List.append_nil, inbox_still h1 (by intros; nofun)], rfl⟩
    | send p data m => exact other rfl ⟨[], by rw [List.append_nil, inbox_still h1 (by intros; nofun)], rfl⟩
    | deliver p => exact other rfl ⟨[], by rw [List.append_nil, inbox_still h1 (by intros; nofun)], rfl⟩

/-- What has been sent at the end of a run was sent before it or is sent in it. -/
theorem run_sent {l l' : Log} : ∀ as, l.run w as = some l' → ∀ s m, m ∈ l'.sys.sent s → m ∈ l.sys.sent s ∨ ∃ d, .send s d m ∈ as := by
  intro as
  induction as generalizing l with
  | nil => intro h s m hm; cases h; exact .inl hm
  | cons a as ih =>
    intro h s m hm
    obtain ⟨z, h1, h2⟩ := Option.bind_eq_some_iff.1 h
    rcases ih h2 s m hm with hz | ⟨d, hd⟩
    · have hst := log_step h1
      cases hst with
      | send p data m0 c e =>
        subst e
        simp only [upd] at hz
        split at hz
        · rename_i e
          subst e
          rcases List.mem_cons.1 hz with rfl | hz
          · exact .inr ⟨data, .head _⟩
          · exact .inl hz
        · exact .inl hz
      | _ => exact .inl hz
    · exact .inr ⟨d, .tail _ hd⟩

/-- The run `before`, `later` (which meets the other hypotheses): nobody subscribes to "t" as a pattern, and client 1 gets two EVENTs. -/
example : (∀ s' r o, .subscribe r o (str "t") ∈ (logged (before ++ later)).sys.sent s' →
      o.text (str "match") ≠ str "prefix" ∧ o.text (str "match") ≠ str "wildcard") ∧
    (((logged before).taken Dealer.noWild later).filterMap fun q => publishedTo (str "t") q.2).length = 2 := by
  refine ⟨fun s' r o h => ?_, by decide +kernel⟩
  rcases run_sent (l := Log.new) (w := Dealer.noWild) (before ++ later) rfl s' _ h with h | ⟨d, h⟩
  · cases h
  · simp [before, later, three, does] at h
    obtain ⟨-, -, -, rfl⟩ := h
    decide +kernel

end Wamp.System
