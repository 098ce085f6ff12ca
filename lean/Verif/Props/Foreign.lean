import Verif.Lemmas.Foreign
/-!
# C131: clients that do not use this library

What holds between clients that use this library's `Session` holds as well when others take part that send any message at any time.
-/
namespace Wamp.System
open Wamp Session

variable {w : Str → Str → Bool} {F : Nat → Bool}

/-- **C131** Every client that uses this library and does not reuse request IDs accepts each EVENT, SUBSCRIBED, UNSUBSCRIBED and PUBLISHED it is sent. -/
theorem C131_broker_accepted {y : Log} (h : Log.Open w F y) (hb : y.sys.bh.length < 2 ^ 53) (s : Nat) (hF : F s = false) (hf : Fresh y.sys s)
    (m : Msg) (rest : List Msg) (hd : y.sys.down s = m :: rest)
    (hm : (∃ i p d a k, m = .event i p d a k) ∨ (∃ r i, m = .subscribed r i) ∨ (∃ r, m = .unsubscribed r) ∨ ∃ r p, m = .published r p) :
    Accepts (y.sys.client s) m := by
  obtain ⟨x, h1, h2⟩ := open_like h hb
  rw [← h2.client s hF]
  exact C89_broker_accepted (log_sys h1) (Nat.le_of_lt (h2.bhLen hb)) s (h2.fresh hf) m rest (by rw [h2.down s hF, hd]) hm

/-- **C131** It accepts each RESULT, REGISTERED and ERROR. -/
theorem C131_answers_accepted {y : Log} (h : Log.Open w F y) (hb : y.sys.bh.length < 2 ^ 53) (s : Nat) (hF : F s = false) (hf : Fresh y.sys s)
    (m : Msg) (rest : List Msg) (hd : y.sys.down s = m :: rest)
    (hm : (∃ r d a k bin, m = .result r d a k bin) ∨ (∃ r g, m = .registered r g) ∨ ∃ t r d u a k, m = .error t r d u a k) :
    Accepts (y.sys.client s) m := by
  obtain ⟨x, h1, h2⟩ := open_like h hb
  rw [← h2.client s hF]
  exact C90_answers_accepted_partial (log_sys h1) s (h2.fresh hf) m rest (by rw [h2.down s hF, hd]) hm

/-- **C131** It accepts each INVOCATION of a registration that it has not asked to end, and each UNREGISTERED if it asks only once to end a registration. -/
theorem C131_invocations_accepted {y : Log} (h : Log.Open w F y) (hb : y.sys.bh.length < 2 ^ 53) (hd : y.sys.dh.length ≤ 2 ^ 53) (s : Nat) (hF : F s = false)
    (hf : Fresh y.sys s) (m : Msg) (rest : List Msg) (hm : y.sys.down s = m :: rest) :
    (∀ i g d a k bin, m = .invocation i g d a k bin → (∀ r, .unregister r g ∉ y.sys.sent s) → Accepts (y.sys.client s) m) ∧
    (∀ r, m = .unregistered r → (∀ g r', .unregister r g ∈ y.sys.sent s → .unregister r' g ∈ y.sys.sent s → r' = r) → Accepts (y.sys.client s) m) := by
  obtain ⟨x, h1, h2⟩ := open_like h hb
  rw [← h2.client s hF, ← h2.sent s hF]
  exact C91_simple_partial (log_sys h1) (h2.dhLen hd) s (h2.fresh hf) m rest (by rw [h2.down s hF, hm])

theorem traced_like {x y : Log} (h : Like F y x) {s : Nat} {received : List Msg} (ht : Traced w x s received) : Traced w y s received := by
  obtain ⟨src, h1, h2, h3⟩ := ht
  refine ⟨src, h1, fun q hq => (h2 q hq).mono fun p m hm => h.mem hm, fun p => (h3 p).trans ?_⟩
  exact (h.sub p).reverse

/-- **C131** Every EVENT for a client (of either kind) was published by a client, and the recipient had asked for it: no client gets events out of nothing,
twice, changed, or in another order than that in which each publisher sent them. -/
theorem C131_events {y : Log} (h : Log.Open w F y) (hb : y.sys.bh.length < 2 ^ 53) (hd : y.sys.dh.length ≤ 2 ^ 53) (s : Nat) :
    Traced w y s ((y.inbox s).filter isEvent) := by
  obtain ⟨x, h1, h2⟩ := open_like h hb
  rw [← h2.inbox s]
  exact traced_like h2 (C105_events h1 (Nat.le_of_lt (h2.bhLen hb)) (h2.dhLen hd) s)

/-- **C131** The same for all other messages: no client is sent an answer to a request it has not made, or a call to a procedure it has not asked to
register. -/
theorem C131_answers {y : Log} (h : Log.Open w F y) (hb : y.sys.bh.length < 2 ^ 53) (hd : y.sys.dh.length ≤ 2 ^ 53) (s : Nat) :
    Traced w y s ((y.inbox s).filter fun m => !isEvent m) := by
  obtain ⟨x, h1, h2⟩ := open_like h hb
  rw [← h2.inbox s]
  exact traced_like h2 (C106_answers h1 (Nat.le_of_lt (h2.bhLen hb)) (h2.dhLen hd) s)

/-- **C131** All clients get their events in the same order. -/
theorem C131_total_order {y : Log} (h : Log.Open w F y) (hb : y.sys.bh.length < 2 ^ 53) :
    ∃ events : List Msg, (publications events).Pairwise (· < ·) ∧ (∀ e ∈ events, isEvent e = true) ∧
      ∀ s, ((y.inbox s).filter isEvent).Sublist events := by
  obtain ⟨x, h1, h2⟩ := open_like h hb
  obtain ⟨events, e1, e2, e3⟩ := C107_total_order h1 (Nat.le_of_lt (h2.bhLen hb))
  exact ⟨events, e1, e2, fun s => h2.inbox s ▸ e3 s⟩

theorem refusable_publish {t : Str} : ∀ {m : Msg}, refusable m → publishedTo t m = none := by
  intro m h
  cases m <;> simp only [publishedTo]
  case publish => exact absurd h.1 (fun h => (nomatch h))

/-- **C131** A subscriber of a topic gets everything that is published to it, whoever publishes and whatever else the others send, for as long as it does
not unsubscribe and is not removed. -/
theorem C131_every_event {y y' : Log} (h : Log.Open w F y) (vs : List Move) (hv : y.moves w F vs = some y') (hb : y'.sys.bh.length < 2 ^ 53)
    (s r i : Nat) (t : Str) (hsub : .subscribed r i ∈ y.inbox s) (hr : ∀ o t', .subscribe r o t' ∈ y'.sys.sent s → t' = t)
    (hu : ∀ q, .unsubscribe q i ∉ y'.sys.sent s) (hs : Stays y'.sys s)
    (hp : ∀ q ∈ y.takenFrom w F vs, publishedTo t q.2 ≠ none → Stays y'.sys q.1) :
    ∃ new, y'.inbox s = y.inbox s ++ new ∧ ((y.takenFrom w F vs).filterMap fun q => publishedTo t q.2).Sublist (new.filterMap (eventFor i)) := by
  obtain ⟨x, h1, h2⟩ := open_like h (Nat.lt_of_le_of_lt (moves_bh vs hv).1 hb)
  obtain ⟨as, x', g1, g2, g3⟩ := moves_like h2 h1 vs hv hb
  have := C109_every_event h1 as g1 (Nat.le_of_lt (g2.bhLen hb)) s r i t (h2.inbox s ▸ hsub) (fun o t' hm => hr o t' (g2.mem hm))
    (fun q hm => hu q (g2.mem hm)) (g2.stays hs) (fun q hq hn => g2.stays (hp q (g3.mem q hq) hn))
  rw [g3.filterMap fun q hq => refusable_publish hq, g2.inbox, h2.inbox] at this
  exact this

/-- **C131** If all subscriptions to the topic are exact, it gets just that, in the order in which the router took it. -/
theorem C131_exactly {y y' : Log} (h : Log.Open w F y) (vs : List Move) (hv : y.moves w F vs = some y') (hb : y'.sys.bh.length < 2 ^ 53)
    (s r i : Nat) (t : Str) (hsub : .subscribed r i ∈ y.inbox s) (hr : ∀ o t', .subscribe r o t' ∈ y'.sys.sent s → t' = t)
    (hx : ∀ s' r o, .subscribe r o t ∈ y'.sys.sent s' → o.text (str "match") ≠ str "prefix" ∧ o.text (str "match") ≠ str "wildcard")
    (hu : ∀ q, .unsubscribe q i ∉ y'.sys.sent s) (hs : Stays y'.sys s)
    (hp : ∀ q ∈ y.takenFrom w F vs, publishedTo t q.2 ≠ none → Stays y'.sys q.1) :
    ∃ new, y'.inbox s = y.inbox s ++ new ∧ new.filterMap (eventFor i) = (y.takenFrom w F vs).filterMap fun q => publishedTo t q.2 := by
  obtain ⟨x, h1, h2⟩ := open_like h (Nat.lt_of_le_of_lt (moves_bh vs hv).1 hb)
  obtain ⟨as, x', g1, g2, g3⟩ := moves_like h2 h1 vs hv hb
  have := C109_exactly h1 as g1 (Nat.le_of_lt (g2.bhLen hb)) s r i t (h2.inbox s ▸ hsub) (fun o t' hm => hr o t' (g2.mem hm))
    (fun s' r o hm => hx s' r o (g2.mem hm)) (fun q hm => hu q (g2.mem hm)) (g2.stays hs) (fun q hq hn => g2.stays (hp q (g3.mem q hq) hn))
  rw [g3.filterMap fun q hq => refusable_publish hq, g2.inbox, h2.inbox] at this
  exact this

/-- **C131** Every SUBSCRIBE, PUBLISH (if an answer is wanted) and REGISTER of a client that uses this library is on its way or answered. -/
theorem C131_requests_answered {y : Log} (h : Log.Open w F y) (hb : y.sys.bh.length < 2 ^ 53) (s : Nat) (hF : F s = false) (hs : Stays y.sys s)
    (m : Msg) (hm : m ∈ y.sys.sent s) : m ∈ y.sys.up s ∨ answeredBy (y.inbox s) m := by
  obtain ⟨x, h1, h2⟩ := open_like h hb
  rw [← h2.inbox s, ← h2.up s hF]
  exact C111_requests_answered h1 (Nat.le_of_lt (h2.bhLen hb)) s (h2.stays hs) m (by rw [h2.sent s hF]; exact hm)

/-- **C131** A client that uses this library gets EVENTs of a subscription only after SUBSCRIBED and not after the UNSUBSCRIBED it asked for. -/
theorem C131_events_while_subscribed {y : Log} (h : Log.Open w F y) (hb : y.sys.bh.length < 2 ^ 53) (s : Nat) (hF : F s = false)
    (hq : ∀ q i j, .unsubscribe q i ∈ y.sys.sent s → .unsubscribe q j ∈ y.sys.sent s → i = j)
    (pre post : List Msg) (i n : Nat) (d : GoMap) (a : GoSlice) (k : GoMap) (he : y.inbox s = pre ++ .event i n d a k :: post) :
    ∃ earlier r between, pre = earlier ++ .subscribed r i :: between ∧ ∀ q, .unsubscribed q ∈ between → .unsubscribe q i ∉ y.sys.sent s := by
  obtain ⟨x, h1, h2⟩ := open_like h hb
  rw [← h2.sent s hF] at hq ⊢
  exact C113_events_while_subscribed h1 (Nat.le_of_lt (h2.bhLen hb)) s hq pre post i n d a k (by rw [h2.inbox s]; exact he)

/-- **C131** No request is settled twice, of either kind of client, if it does not reuse request IDs. -/
theorem C131_settled_once {y : Log} (h : Log.Open w F y) (hb : y.sys.bh.length < 2 ^ 53) (s : Nat) (hf : Fresh y.sys s) (pre post : List Msg) (m : Msg)
    (k : Nat × Nat) (hm : y.inbox s = pre ++ m :: post) (hk : settles m = some k) :
    (∃ m' ∈ y.sys.sent s, request m' = some k) ∧ ∀ m' ∈ post, answers m' ≠ some k := by
  obtain ⟨x, h1, h2⟩ := open_like h hb
  obtain ⟨⟨m', g1, g2⟩, g3⟩ := C116_settled_once h1 (Nat.le_of_lt (h2.bhLen hb)) s (h2.fresh hf) pre post m k (by rw [h2.inbox s]; exact hm) hk
  exact ⟨⟨m', h2.mem g1, g2⟩, g3⟩

/-- **C131** The answers to a call are passed on to its caller. -/
theorem C131_results_passed_on {y0 y1 y2 : Log} (h : Log.Open w F y0) {s r : Nat} (hF : F s = false) {o : GoMap} {u : Str} {a : GoSlice} {k : GoMap} {bin : Bin}
    {rest : List Msg} {wo : List Str} {so : List Nat} {rnd : Nat} (hup : y0.sys.up s = .call r o u a k bin :: rest)
    (hcall : y0.act w (.route s wo so rnd) = some y1)
    {c i g : Nat} {d : GoMap} {a' : GoSlice} {k' : GoMap} {bin' : Bin} (hinv : y1.inbox c = y0.inbox c ++ [.invocation i g d a' k' bin'])
    {vs : List Move} (hrun : y1.moves w F vs = some y2) (hb : y2.sys.bh.length < 2 ^ 53) (hd : y2.sys.dh.length ≤ 2 ^ 53)
    (hf : Fresh y2.sys s) (hs : Stays y2.sys s) :
    AllPassedOn (o.flag (str "receive_progress")) r (answersTo (o.flag (str "receive_progress")) i ((y1.takenFrom w F vs).map (·.2)))
      ((y2.inbox s).filter (answersCall r)) := by
  have hb1 := Nat.lt_of_le_of_lt (moves_bh vs hrun).1 hb
  have hm : y0.move w F (.act (.route s wo so rnd)) = some y1 := hcall
  obtain ⟨x0, h0, l0⟩ := open_like h (Nat.lt_of_le_of_lt (move_bh hm).1 hb1)
  obtain ⟨as, x1, r1, l1, -, e1⟩ := like_move l0 h0 hm hb1
  cases e1 s wo so rnd rfl hF
  have a1 : x0.act w (.route s wo so rnd) = some x1 := by
    simp only [Log.run] at r1
    obtain ⟨z, e, e'⟩ := Option.bind_eq_some_iff.1 r1
    cases e'; exact e
  obtain ⟨bs, x2, r2, l2, dr⟩ := moves_like l1 (h0.act _ a1) vs hrun hb
  have := C121_results_passed_on h0 (by rw [l0.up s hF]; exact hup) a1 (by rw [l1.inbox, l0.inbox]; exact hinv) r2 (Nat.le_of_lt (l2.bhLen hb)) (l2.dhLen hd)
    (l2.fresh hf) (l2.stays hs)
  rw [dr.answersTo, l2.inbox] at this
  exact this

/-- **C131** The parts of a call made in parts are handed on to the callee. -/
theorem C131_parts_handed_on {y0 y1 : Log} (h : Log.Open w F y0) {vs : List Move} (hrun : y0.moves w F vs = some y1)
    (hb : y1.sys.bh.length < 2 ^ 53) (hd : y1.sys.dh.length ≤ 2 ^ 53) {c q g : Nat} {u : Str} (hreg : .registered q g ∈ y0.inbox c)
    (hq : ∀ o p, .register q o p ∈ y1.sys.sent c → p = u)
    (hsingle : ∀ s q o, .register q o u ∈ y1.sys.sent s → o.text (str "invoke") = [] ∨ o.text (str "invoke") = str "single")
    (hu : ∀ q, .unregister q g ∉ y1.sys.sent c) (hc : Stays y1.sys c) {s r : Nat}
    (hparts : ∀ o p a k bin, (s, .call r o p a k bin) ∈ y0.takenFrom w F vs → p = u ∧ o.flag (str "progress") = true) :
    ∃ i new, y1.inbox c = y0.inbox c ++ new ∧ AllHandedOn i g (partsOf s r (y0.takenFrom w F vs)) (new.filter (invokes i)) ∧
      ∀ s' ≠ c, ∃ new, y1.inbox s' = y0.inbox s' ++ new ∧ new.filter (invokes i) = [] := by
  obtain ⟨x0, h0, l0⟩ := open_like h (Nat.lt_of_le_of_lt (moves_bh vs hrun).1 hb)
  obtain ⟨as, x1, r1, l1, dr⟩ := moves_like l0 h0 vs hrun hb
  obtain ⟨i, new, g1, g2, g3⟩ := C129_parts_handed_on h0 r1 (Nat.le_of_lt (l1.bhLen hb)) (l1.dhLen hd) (l0.inbox c ▸ hreg) (fun o p hm => hq o p (l1.mem hm))
    (fun s q o hm => hsingle s q o (l1.mem hm)) (fun q hm => hu q (l1.mem hm)) (l1.stays hc) (fun o p a k bin hm => hparts o p a k bin (dr.mem _ hm))
  have e : partsOf s r (x0.taken w as) = partsOf s r (y0.takenFrom w F vs) := by
    rw [partsOf, partsOf, dr.filter]
    rintro ⟨p, m⟩ hr
    cases m <;> simp [isPart]
    case call => exact absurd hr.2 (fun h => h trivial)
  rw [e] at g2
  refine ⟨i, new, by rw [← l1.inbox, ← l0.inbox]; exact g1, g2, fun s' hs' => ?_⟩
  rw [← l1.inbox, ← l0.inbox]
  exact g3 s' hs'

/-- `y` with a CALL of `s` next, and a state without foreign clients to compare it with. -/
theorem call_ready {y x : Log} (hl : Like F y x) (hx : Log.Reach w x) {s q : Nat} {o : GoMap} {p : Str} {a : GoSlice} {k : GoMap} {bin : Bin} {rest : List Msg}
    (hup : y.sys.up s = .call q o p a k bin :: rest) :
    ∃ x1, Log.Reach w x1 ∧ x1.sys.broker = y.sys.broker ∧ x1.sys.dealer = y.sys.dealer ∧ (∀ s', x1.inbox s' = y.inbox s') ∧
      (∃ rest', x1.sys.up s = .call q o p a k bin :: rest') ∧ (∀ s' m, m ∈ x1.sys.sent s' → m ∈ y.sys.sent s') ∧
      x1.sys.bh = x.sys.bh ∧ x1.sys.dh = x.sys.dh := by
  cases hF : F s with
  | false => exact ⟨x, hx, hl.broker, hl.dealer, hl.inbox, ⟨rest, by rw [hl.up s hF, hup]⟩, fun s' m hm => hl.mem hm, rfl, rfl⟩
  | true =>
    have hj : s ∈ x.sys.joined := hl.here s hF (by rw [hup]; exact (nomatch ·))
    have ha : x.act w (.send s [] (.call q o p a k bin)) = some ⟨{ x.sys with
        client := upd x.sys.client s ((x.sys.client s).put .call ((x.sys.client s .call).set q 0)),
        up := upd x.sys.up s (x.sys.up s ++ [.call q o p a k bin]), sent := upd x.sys.sent s (.call q o p a k bin :: x.sys.sent s) }, x.got⟩ := by
      simp only [Log.act, Sys.act, send, Prog.run, if_pos hj, Option.map_some]
    refine ⟨_, hx.act _ ha, hl.broker, hl.dealer, hl.inbox, ⟨[], ?_⟩, fun s' m hm => ?_, rfl, rfl⟩
    · simp only [upd_same, hl.idle s hF, List.nil_append]
    · by_cases hss : s' = s
      · subst hss
        simp only [upd_same] at hm
        rcases List.mem_cons.1 hm with rfl | hm
        · obtain ⟨old, g1, -⟩ := hl.mine s' hF
          rw [g1, hup]
          simp
        · exact hl.mem hm
      · simp only [upd_other _ _ hss] at hm
        exact hl.mem hm

/-- **C131** A procedure that a client has registered for itself alone stays callable: whatever others send, the router gives the next CALL to it, under
its registration, with the caller's arguments, and to nobody else. -/
theorem C131_stays_callable {y : Log} (h : Log.Open w F y) (hb : y.sys.bh.length < 2 ^ 53) (hd : y.sys.dh.length < 2 ^ 53) (c r g : Nat) (p : Str)
    (hreg : .registered r g ∈ y.inbox c) (hr : ∀ o p', .register r o p' ∈ y.sys.sent c → p' = p)
    (hsingle : ∀ s q o, .register q o p ∈ y.sys.sent s → o.text (str "invoke") = [] ∨ o.text (str "invoke") = str "single")
    (hu : ∀ q, .unregister q g ∉ y.sys.sent c) (hc : Stays y.sys c) (s q : Nat) (hs : Stays y.sys s) (o : GoMap) (a : GoSlice) (k : GoMap) (bin : Bin)
    (rest : List Msg) (wo : List Str) (so : List Nat) (rnd : Nat) (hup : y.sys.up s = .call q o p a k bin :: rest) :
    ∃ y', y.move w F (.act (.route s wo so rnd)) = some y' ∧
      (∃ i d a' k' bin', y'.inbox c = y.inbox c ++ [.invocation i g d a' k' bin'] ∧ sameContent a k bin a' k' bin') ∧
      ∀ s' ≠ c, y'.inbox s' = y.inbox s' := by
  obtain ⟨x, h1, h2⟩ := open_like h hb
  obtain ⟨x1, hx1, eb, ed, ei, ⟨rest', eu⟩, es, ebh, edh⟩ := call_ready h2 h1 hup
  have st : ∀ {s}, Stays y.sys s → Stays x1.sys s := fun hs => by
    have := h2.stays hs
    exact ⟨fun e he => this.1 e (ebh ▸ he), fun e he => this.2 e (edh ▸ he)⟩
  obtain ⟨x', k1, ⟨i, d, a', k', bin', k2, k3⟩, k4⟩ := C110_stays_callable hx1 (ebh ▸ Nat.le_of_lt (h2.bhLen hb)) (edh ▸ Nat.lt_of_le_of_lt h2.dh.length_le hd) c r g p
    (by rw [ei]; exact hreg) (fun o p' hm => hr o p' (es _ _ hm)) (fun s q o hm => hsingle s q o (es _ _ hm)) (fun q hm => hu q (es _ _ hm)) (st hc) s q (st hs)
    o a k bin rest' wo so rnd eu
  obtain ⟨z, g1, rfl⟩ := Option.map_eq_some_iff.1 k1
  simp only [Sys.act, eu] at g1
  obtain ⟨evb, evd, out, hz, hall, -⟩ := handle_parts g1
  have hy := hall { y.sys with up := upd y.sys.up s rest } eb.symm ed.symm
  have hin : ∀ s', x1.got s' ++ (x1.sys.down s' ++ messagesFor s' out) = y.inbox s' ++ messagesFor s' out := fun s' => by
    rw [← ei s', Log.inbox, List.append_assoc]
  have hx' : ∀ s', Log.inbox ⟨z, x1.got⟩ s' = y.inbox s' ++ messagesFor s' out := fun s' => by
    rw [← hin s', Log.inbox, hz]
  have k2 := (hx' c).symm.trans k2
  rw [ei] at k2
  have hact : y.move w F (.act (.route s wo so rnd)) = some ⟨{ y.sys with
      up := upd y.sys.up s rest, broker := z.broker, dealer := z.dealer, bh := evb ++ y.sys.bh, dh := evd ++ y.sys.dh,
      down := fun s' => y.sys.down s' ++ messagesFor s' out }, y.got⟩ := by
    simp only [Log.move, Log.act, Sys.act, hup, hy, Option.map_some]
  refine ⟨_, hact, ⟨i, d, a', k', bin', ?_, k3⟩, fun s' hs' => ?_⟩
  · rw [← k2]; simp only [Log.inbox, List.append_assoc]
  · have k4 := (hx' s').symm.trans (k4 s' hs')
    rw [ei] at k4
    refine Eq.trans ?_ k4
    simp only [Log.inbox, List.append_assoc]

/-! ### An execution with a hostile client -/

/-- The state after these moves. -/
def openLog (F : Nat → Bool) (vs : List Move) : Log := (Log.new.moves Dealer.noWild F vs).getD Log.new

theorem open_moves {y y' : Log} (h : Log.Open w F y) : ∀ vs, y.moves w F vs = some y' → Log.Open w F y' := by
  intro vs
  induction vs generalizing y with
  | nil => intro e; cases e; exact h
  | cons v vs ih =>
    intro e
    obtain ⟨z, h1, h2⟩ := Option.bind_eq_some_iff.1 e
    exact ih (h.move v h1) h2

theorem reach_open (F : Nat → Bool) (vs : List Move) : Log.Open Dealer.noWild F (openLog F vs) := by
  unfold openLog
  cases h : Log.new.moves Dealer.noWild F vs with
  | none => exact .new
  | some y => exact open_moves .new vs h

/-- Client 3 does not use this library. -/
def third : Nat → Bool := fun s => s = 3

/-- Client 3 sends a message and the router takes it. -/
def throws (m : Msg) : List Move := [.inject 3 m, .act (.route 3 [] [] 0)]

/-- Clients 1 and 2 do as they should: 1 subscribes to "t", 2 registers "p". -/
def startUp : List Move :=
  List.map Move.act (three ++ does 1 (.subscribe 1 none (str "t")) ++ [.deliver 1] ++ does 2 (.register 1 none (str "p")) ++ [.deliver 2])

/-- Client 3 tries to end their subscription and registration, to answer for them, and to pass for the router; then publishes. -/
def hostile : List Move :=
  throws (.unsubscribe 1 1) ++ throws (.unregister 2 1) ++ throws (.event 1 7 none none none) ++ throws (.error 48 7 none (str "e") none none) ++
  throws (.result 7 none none none Bin.none) ++ throws (.yield 1 none none none Bin.none) ++ throws (.subscribed 1 1) ++
  throws (.publish 1 none (str "t") (some [.bool false]) none)

/-- Client 2 publishes, client 1 calls. -/
def goOn : List Move :=
  List.map Move.act (does 2 (.publish 2 none (str "t") (some [.bool true]) none) ++
    [.send 1 [] (.call 7 none (str "p") (some [.bool true]) none Bin.none)])

example : Log.Open Dealer.noWild third (openLog third (startUp ++ hostile ++ goOn)) ∧ (openLog third (startUp ++ hostile ++ goOn)).sys.bh.length < 2 ^ 53 ∧
    (openLog third (startUp ++ hostile ++ goOn)).sys.dh.length < 2 ^ 53 ∧ third 1 = false ∧ third 2 = false ∧ third 3 = true ∧
    ((openLog third (startUp ++ hostile ++ goOn)).inbox 1).map glance = [(33, 1), (36, 2), (36, 3)] ∧
    ((openLog third (startUp ++ hostile ++ goOn)).inbox 2).map glance = [(65, 1)] ∧
    ((openLog third (startUp ++ hostile ++ goOn)).sys.sent 3).length = 8 ∧
    (openLog third (startUp ++ hostile ++ goOn)).sys.up 1 = [.call 7 none (str "p") (some [.bool true]) none Bin.none] := by
  refine ⟨reach_open _ _, ?_, ?_, rfl, rfl, rfl, ?_, ?_, ?_, rfl⟩ <;> decide +kernel

/-- What clients 1, 2 and 3 have sent in the end. -/
theorem hostile_sent :
    (openLog third (startUp ++ hostile ++ goOn)).sys.sent 1 = [.call 7 none (str "p") (some [.bool true]) none Bin.none, .subscribe 1 none (str "t")] ∧
    (openLog third (startUp ++ hostile ++ goOn)).sys.sent 2 = [.publish 2 none (str "t") (some [.bool true]) none, .register 1 none (str "p")] := ⟨rfl, rfl⟩

/-- Client 1 has got what clients 3 and 2 published to "t", and nothing else. -/
example : ∃ new, (openLog third (startUp ++ hostile ++ goOn)).inbox 1 = (openLog third startUp).inbox 1 ++ new ∧
    new.filterMap (eventFor 1) = [(some [.bool false], none), (some [.bool true], none)] := by
  have hm : (openLog third startUp).moves Dealer.noWild third (hostile ++ goOn) = some (openLog third (startUp ++ hostile ++ goOn)) := rfl
  refine C131_exactly (reach_open _ _) (hostile ++ goOn) hm (by decide +kernel) 1 1 1 (str "t") (.head _) ?_ ?_ ?_ (stays_of ?_) ?_
  · intro o t' h
    rw [hostile_sent.1] at h
    simp at h
    exact h.2
  · intro s' r o h
    by_cases e1 : s' = 1
    · subst e1
      rw [hostile_sent.1] at h
      simp at h
      rw [h.2]
      exact ⟨by decide, by decide⟩
    · by_cases e2 : s' = 2
      · subst e2
        rw [hostile_sent.2] at h
        simp at h
      · by_cases e3 : s' = 3
        · subst e3
          have : ∀ m ∈ (openLog third (startUp ++ hostile ++ goOn)).sys.sent 3, (match m with | .subscribe .. => false | _ => true) = true := by decide +kernel
          cases this _ h
        · have : (openLog third (startUp ++ hostile ++ goOn)).sys.sent s' = [] := by
            show (upd (upd (upd (upd (upd (upd (upd (upd (upd (upd (upd (upd (fun _ => []) 1 _) 2 _) 3 _) 3 _) 3 _) 3 _) 3 _) 3 _) 3 _) 3 _) 2 _) 1 _) s' = []
            simp [upd, e1, e2, e3]
          rw [this] at h; cases h
  · intro q h
    rw [hostile_sent.1] at h
    simp at h
  · decide +kernel
  · intro q hq _
    have : ∀ q ∈ (openLog third startUp).takenFrom Dealer.noWild third (hostile ++ goOn), q.1 = 2 ∨ q.1 = 3 := by decide +kernel
    rcases this q hq with e | e <;> rw [e] <;> exact stays_of (by decide +kernel)

end Wamp.System
