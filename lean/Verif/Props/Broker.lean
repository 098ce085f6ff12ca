import Verif.Lemmas.Broker
import Verif.Lemmas.Router
/-!
# C70–C82: the broker
-/
namespace Wamp.Broker
variable {w : Str → Str → Bool}

/-! ### Lookup -/

theorem inForce_prefix {h : List Event} {b : State} (hi : Inv h b) (t : Str) :
    inForce h t (str "prefix") ↔ ∃ a, b.tree.get t = some a := by
  constructor
  · rintro ⟨h1, s, i, h2, h3⟩
    obtain ⟨a, a1, a2, a3⟩ := (hi.cur s t i).1 h2
    obtain ⟨p, p1, p2⟩ := hi.pol t a a1
    rw [a2, h3] at p1; cases p1
    exact ⟨a, (hi.tre t a).2 ⟨a1, by rw [p2]; exact (normMatch_prefix _).2 rfl, h1⟩⟩
  · rintro ⟨a, ha⟩
    obtain ⟨a1, a2, a3⟩ := (hi.tre t a).1 ha
    obtain ⟨p, p1, p2⟩ := hi.pol t a a1
    rw [p2, normMatch_prefix] at a2
    obtain ⟨-, -, t3, -, -, -⟩ := hi.top t a a1
    obtain ⟨s, hs⟩ := List.exists_mem_of_ne_nil _ t3
    exact ⟨a3, s, _, (hi.cur s t _).2 ⟨a, a1, rfl, hs⟩, a2 ▸ p1⟩

theorem inForce_wildcard {h : List Event} {b : State} (hi : Inv h b) (t : Str) :
    inForce h t (str "wildcard") ↔ ∃ a, b.wc.get t = some a := by
  constructor
  · rintro ⟨h1, s, i, h2, h3⟩
    obtain ⟨a, a1, a2, a3⟩ := (hi.cur s t i).1 h2
    obtain ⟨p, p1, p2⟩ := hi.pol t a a1
    rw [a2, h3] at p1; cases p1
    exact ⟨a, (hi.wcs t a).2 ⟨a1, by rw [p2]; exact (normMatch_wildcard _).2 rfl, h1⟩⟩
  · rintro ⟨a, ha⟩
    obtain ⟨a1, a2, a3⟩ := (hi.wcs t a).1 ha
    obtain ⟨p, p1, p2⟩ := hi.pol t a a1
    rw [p2, normMatch_wildcard] at a2
    obtain ⟨-, -, t3, -, -, -⟩ := hi.top t a a1
    obtain ⟨s, hs⟩ := List.exists_mem_of_ne_nil _ t3
    exact ⟨a3, s, _, (hi.cur s t _).2 ⟨a, a1, rfl, hs⟩, a2 ▸ p1⟩

theorem lookup_some {h : List Event} {b : State} (hi : Inv h b) {order : List Str} {u : Str} {a : Nat}
    (hl : lookup w order b u = some a) : ∃ t, b.byTopic t = some a ∧ selects w h u t := by
  simp only [lookup] at hl
  cases hu : b.byTopic u with
  | some p =>
    have hne := (hi.top u p hu).2.2.1
    rw [hu] at hl
    simp only [List.isEmpty_iff, hne, if_false] at hl
    cases hl
    exact ⟨u, hu, .inl ⟨(live_iff hi u).2 ⟨a, hu⟩, rfl⟩⟩
  | none =>
    rw [hu] at hl
    simp only at hl
    have hnl : ¬live h u := by rw [live_iff hi]; simp [hu]
    split at hl
    · rename_i q hq
      cases hl
      obtain ⟨p, p1, p2, p3⟩ := longestPrefix_some hq
      refine ⟨p, ((hi.tre p a).1 p2).1, .inr (.inl ⟨hnl, (inForce_prefix hi p).2 ⟨a, p2⟩, p1, fun t' ht hp => ?_⟩)⟩
      obtain ⟨a', ha'⟩ := (inForce_prefix hi t').1 ht
      exact p3 t' hp (by simp [ha'])
    · rename_i hq
      obtain ⟨p, p1, p2⟩ := firstWildcard_some hl
      refine ⟨p, ((hi.wcs p a).1 p2).1, .inr (.inr ⟨hnl, fun t' ht hp => ?_, (inForce_wildcard hi p).2 ⟨a, p2⟩, p1⟩)⟩
      obtain ⟨a', ha'⟩ := (inForce_prefix hi t').1 ht
      rw [longestPrefix_none hq t' hp] at ha'; cases ha'

theorem lookup_none {h : List Event} {b : State} (hi : Inv h b) {order : List Str} {u : Str}
    (hl : lookup w order b u = none) : ∀ t, ¬selects w h u t := by
  simp only [lookup] at hl
  cases hu : b.byTopic u with
  | some p =>
    rw [hu] at hl
    simp only at hl
    split at hl
    · split at hl <;> cases hl
    · cases hl
  | none =>
    rw [hu] at hl
    simp only at hl
    have hnl : ¬live h u := by rw [live_iff hi]; simp [hu]
    split at hl
    · cases hl
    · rename_i hq
      rintro t (⟨h1, -⟩ | ⟨-, h2, h3, -⟩ | ⟨-, -, h2, h3⟩)
      · exact hnl h1
      · obtain ⟨a', ha'⟩ := (inForce_prefix hi t).1 h2
        rw [longestPrefix_none hq t h3] at ha'; cases ha'
      · obtain ⟨a', ha'⟩ := (inForce_wildcard hi t).1 h2
        rw [firstWildcard_none hl t h3] at ha'; cases ha'

/-! ### What a publication does -/

/-- The details an EVENT must have. -/
def detailsSpec (h : List Event) (s : Nat) (u : Str) : Dict :=
  if disclosed h then
    match session h s with
    | some p => [(str "publisher", .u64 s), (str "publisher_authid", .str p.authID), (str "publisher_authrole", .str p.authRole),
        (str "topic", .str u)]
    | none => []
  else []

/-- Complete description of what PUBLISH returns after a history below the wrap-around.  `i` is the ID of the selected
subscription, `n` the publication ID. -/
theorem publish_result {h : List Event} {b : State} (hh : Hist w h b) (hlen : h.length < maxID)
    (s q : Nat) (o : GoMap) (u : Str) (a : GoSlice) (k : GoMap) (wo : List Str) (so : List Nat) :
    (¬attached h s ∧ (publish w b s q o u a k wo so).2 = .err ∧ (publish w b s q o u a k wo so).1 = b) ∨
    (attached h s ∧ ∃ pub, (publish w b s q o u a k wo so).2 = .ok pub ∧
      ∃ n, n = b.idGen + 1 ∧ (publish w b s q o u a k wo so).1 = { b with idGen := n } ∧
        pub.ack = (if o.flag (str "acknowledge") then some (.published q n, s) else none) ∧
        ((pub.event = none ∧ pub.recipients = [] ∧ ∀ t, ¬selects w h u t) ∨
         (∃ t i, selects w h u t ∧ pub.event = some (.event i n (some (detailsSpec h s u)) a k) ∧
           pub.recipients.Nodup ∧ pub.recipients ≠ [] ∧ (∀ x, x ∈ pub.recipients ↔ current h x t = some i) ∧
           ∀ x j, current h x t = some j → j = i))) := by
  have hi := hist_inv hh (Nat.le_of_lt hlen)
  have hg : nextID b.idGen = (b.idGen + 1, b.idGen + 1) := nextID_small (Nat.lt_of_le_of_lt hi.gen hlen)
  have hb := hi.bys s
  simp only [publish, hg]
  cases hs : b.bySession s with
  | none =>
    rw [hs] at hb
    exact .inl ⟨by simp [attached, ← hb], rfl, rfl⟩
  | some m =>
    rw [hs] at hb
    refine .inr ⟨hb.symm, ?_⟩
    simp only
    cases hl : lookup w wo b u with
    | none =>
      exact ⟨_, rfl, _, rfl, rfl, rfl, .inl ⟨rfl, rfl, lookup_none hi hl⟩⟩
    | some p =>
      obtain ⟨t, ht, hsel⟩ := lookup_some hi hl
      obtain ⟨t1, t2, t3, t4, t5, t6⟩ := hi.top t p ht
      simp only [List.isEmpty_iff, t3, if_false]
      have hd : eventDetails b s u = .ok (detailsSpec h s u) := by
        have hss := hi.sess s
        simp only [eventDetails, detailsSpec, hi.det]
        cases hse : session h s with
        | none => rw [hse] at hb; cases hb
        | some d => rw [hss, hse]; split <;> rfl
      rw [hd]
      refine ⟨_, rfl, _, rfl, rfl, rfl, .inr ⟨t, (b.heap p).id, hsel, rfl, nodup_arrange so t4, ?_, ?_, ?_⟩⟩
      · obtain ⟨x, hx⟩ := List.exists_mem_of_ne_nil _ t3
        intro e
        have e : arrange so (b.heap p).subscribers = [] := e
        have := (mem_arrange so _ x).2 hx
        rw [e] at this; cases this
      · intro x
        rw [mem_arrange, hi.cur]
        constructor
        · intro hx; exact ⟨p, ht, rfl, hx⟩
        · rintro ⟨p', h1, -, h3⟩
          rw [ht] at h1; cases h1; exact h3
      · intro x j hj
        obtain ⟨p', h1, h2, -⟩ := (hi.cur x t j).1 hj
        rw [ht] at h1; cases h1; exact h2.symm

theorem hist_exec {h : List Event} {b : State} (hh : Hist w h b) (ops : List Op) :
    Hist w (exec w (h, b) ops).1 (exec w (h, b) ops).2 := by
  induction ops generalizing h b with
  | nil => exact hh
  | cons op ops ih => exact ih (hh.step op)

/-- A session for the examples below. -/
def who (n : Nat) : SessionDetails := ⟨n, [], [], [], [], false, none, none⟩
/-- SUBSCRIBE without options. -/
def sub (s : Nat) (t : String) : Op := .receive s (.subscribe 1 none (str t))
/-- SUBSCRIBE with a match policy. -/
def subWith (s : Nat) (t pol : String) : Op := .receive s (.subscribe 1 (some [(str "match", .str (str pol))]) (str t))
/-- PUBLISH without options. -/
def pub (s : Nat) (t : String) : Op := .publish s 1 none (str t) none none [] []
/-- Recipients of the publication a call made. -/
def Event.recipients : Event → List Nat
  | ⟨_, .ok (.pub p)⟩ => p.recipients
  | _ => []

/-- **C70** After every history with fewer than 2^53 calls: if topic `u` has subscribers, a publication on `u` by an attached session
produces an EVENT for exactly the sessions subscribed to `u`, each once, under the ID by which each of them is subscribed, with the
payload that was published. -/
theorem C70_exact_delivery {h : List Event} {b : State} (hh : Hist w h b) (hlen : h.length < 2 ^ 53)
    (s q : Nat) (o : GoMap) (u : Str) (a : GoSlice) (k : GoMap) (wo : List Str) (so : List Nat)
    (hs : attached h s) (hu : live h u) :
    ∃ pub i n d, (step w b (.publish s q o u a k wo so)).2 = .ok (.pub pub) ∧ pub.event = some (.event i n d a k) ∧
      pub.recipients.Nodup ∧ ∀ x, (x ∈ pub.recipients ↔ ∃ j, current h x u = some j) ∧ (x ∈ pub.recipients → current h x u = some i) := by
  rcases publish_result hh hlen s q o u a k wo so with ⟨hn, -⟩ | ⟨-, pub, h1, n, -, -, -, h2⟩
  · exact absurd hs hn
  · rcases h2 with ⟨-, -, h2⟩ | ⟨t, i, hsel, h3, h4, -, h5, h6⟩
    · exact absurd (.inl ⟨hu, rfl⟩) (h2 u)
    · have ht : t = u := by
        rcases hsel with ⟨-, h⟩ | ⟨h, -⟩ | ⟨h, -⟩
        · exact h
        · exact absurd hu h
        · exact absurd hu h
      subst ht
      refine ⟨pub, i, n, _, by simp only [step, h1, Res.map_ok], h3, h4, fun x => ⟨?_, fun hx => (h5 x).1 hx⟩⟩
      rw [h5]
      constructor
      · intro hx; exact ⟨i, hx⟩
      · rintro ⟨j, hj⟩; rw [← h6 x j hj]; exact hj

/-- Two subscribers, one of whom unsubscribed: the other one gets the event. -/
example : ∃ h b, Hist w h b ∧ attached h 3 ∧ live h (str "t") ∧
    (exec w (h, b) [pub 3 "t"]).1.head?.map Event.recipients = some [2] := by
  refine ⟨_, _, hist_exec .new [.add (who 1), .add (who 2), .add (who 3), sub 1 "t", sub 2 "t", .receive 1 (.unsubscribe 2 1)], rfl, ?_, rfl⟩
  exact ⟨2, 1, rfl⟩

/-- **C71 is false** for what a subscriber asked: session 2 only ever subscribed to topic `"a"` (exact match); because session 1
subscribed to it as a prefix before, session 2 receives an event for `"ab"`. -/
theorem C71_other_policy : ∃ h b, Hist w h b ∧
    (∀ e ∈ h, ∀ q o t, e.op = .receive 2 (.subscribe q o t) → o = none ∧ t = str "a") ∧
    (step w b (pub 1 "ab")).2.map (fun o => (Event.recipients ⟨pub 1 "ab", .ok o⟩).contains 2) = .ok true := by
  refine ⟨_, _, hist_exec .new [.add (who 1), .add (who 2), subWith 1 "a" "prefix", sub 2 "a"], ?_, rfl⟩
  intro e he q o t heq
  simp only [exec, List.mem_cons, List.not_mem_nil, or_false] at he
  rcases he with rfl | rfl | rfl | rfl <;> simp only [sub, subWith, Op.receive.injEq, Msg.subscribe.injEq, reduceCtorEq] at heq
  · exact ⟨heq.2.2.1.symm, heq.2.2.2.symm⟩
  · simp at heq

/-- **C71** what does hold, after every history with fewer than 2^53 calls: every recipient of an EVENT is attached and currently holds
the subscription named in the EVENT, and the published topic is the subscribed one, or extends it and the subscription was created with
the prefix policy, or matches it and the subscription was created with the wildcard policy.  What is missing is that the policy is
the one the recipient asked for (`C71_other_policy`). -/
theorem C71_recipients_partial {h : List Event} {b : State} (hh : Hist w h b) (hlen : h.length < 2 ^ 53)
    (s q : Nat) (o : GoMap) (u : Str) (a : GoSlice) (k : GoMap) (wo : List Str) (so : List Nat) (pub : Publication)
    (hp : (step w b (.publish s q o u a k wo so)).2 = .ok (.pub pub)) (x : Nat) (hx : x ∈ pub.recipients) :
    attached h x ∧ ∃ i n d t, pub.event = some (.event i n d a k) ∧ current h x t = some i ∧
      (t = u ∨ (t <+: u ∧ policy h i = some (str "prefix")) ∨ (w u t = true ∧ policy h i = some (str "wildcard"))) := by
  have hi := hist_inv hh (Nat.le_of_lt hlen)
  rcases publish_result hh hlen s q o u a k wo so with ⟨-, he, -⟩ | ⟨-, pub', h1, n, -, -, -, h2⟩
  · simp only [step, he] at hp; cases hp
  · simp only [step, h1, Res.map_ok, Res.ok.injEq, Out.pub.injEq] at hp
    subst hp
    rcases h2 with ⟨-, h2, -⟩ | ⟨t, i, hsel, h3, h4, -, h5, h6⟩
    · rw [h2] at hx; cases hx
    · have hc := (h5 x).1 hx
      constructor
      · obtain ⟨p, p1, p2, p3⟩ := (hi.cur x t i).1 hc
        obtain ⟨m, m1, -⟩ := hi.ses' t p x p1 p3
        have := hi.bys x
        rw [m1] at this
        exact this.symm
      · refine ⟨i, n, _, t, h3, hc, ?_⟩
        rcases hsel with ⟨-, h⟩ | ⟨-, ⟨-, s', i', c1, c2⟩, h, -⟩ | ⟨-, -, ⟨-, s', i', c1, c2⟩, h⟩
        · exact .inl h
        · rw [h6 s' i' c1] at c2; exact .inr (.inl ⟨h, c2⟩)
        · rw [h6 s' i' c1] at c2; exact .inr (.inr ⟨h, c2⟩)

/-- A prefix subscriber receives an event for a longer topic. -/
example : (exec w ([], init) [.add (who 1), subWith 1 "a" "prefix", pub 1 "ab"]).1.head?.map Event.recipients = some [1] := rfl

/-- **C72 is false**: sessions 1 and 2 subscribe to the prefix `"a"`; when session 2 unsubscribes, session 1, which is still
subscribed, receives nothing any more for `"ab"`.  The same happens with wildcards, and when session 2 is removed. -/
theorem C72_left_behind :
    (∀ leave ∈ [Op.receive 2 (.unsubscribe 5 1), .remove 2 []], ∀ pol ∈ ["prefix", "wildcard"], ∃ h b, Hist (fun _ _ => true) h b ∧
      current h 1 (str "a") = some 1 ∧ policy h 1 = some (str pol) ∧
      (step (fun _ _ => true) b (pub 1 "ab")).2.map (Event.recipients ⟨pub 1 "ab", .ok ·⟩) = .ok []) := by
  intro leave hl pol hp
  simp only [List.mem_cons, List.not_mem_nil, or_false] at hl hp
  rcases hl with rfl | rfl <;> rcases hp with rfl | rfl
  · exact ⟨_, _, hist_exec .new [.add (who 1), .add (who 2), subWith 1 "a" "prefix", subWith 2 "a" "prefix", .receive 2 (.unsubscribe 5 1)], rfl, rfl, rfl⟩
  · exact ⟨_, _, hist_exec .new [.add (who 1), .add (who 2), subWith 1 "a" "wildcard", subWith 2 "a" "wildcard", .receive 2 (.unsubscribe 5 1)], rfl, rfl, rfl⟩
  · exact ⟨_, _, hist_exec .new [.add (who 1), .add (who 2), subWith 1 "a" "prefix", subWith 2 "a" "prefix", .remove 2 []], rfl, rfl, rfl⟩
  · exact ⟨_, _, hist_exec .new [.add (who 1), .add (who 2), subWith 1 "a" "wildcard", subWith 2 "a" "wildcard", .remove 2 []], rfl, rfl, rfl⟩

/-- **C72** what does hold, after every history with fewer than 2^53 calls.  Let `x` be subscribed to the pattern `t`, which is in force
(nobody left it since it was created), and let topic `u` have no subscribers of its own.  If `t` is a prefix pattern and the longest one
in force that matches `u`, or `t` is a wildcard pattern and the only one in force that matches `u` and no prefix pattern in force
matches, then `x` receives the event.  What is missing is that `t` stays in force when another subscriber leaves. -/
theorem C72_patterns_partial {h : List Event} {b : State} (hh : Hist w h b) (hlen : h.length < 2 ^ 53)
    (s q : Nat) (o : GoMap) (u : Str) (a : GoSlice) (k : GoMap) (wo : List Str) (so : List Nat)
    (hs : attached h s) (x : Nat) (t : Str) (i : Nat) (hx : current h x t = some i) (hu : ¬live h u)
    (hsel : (inForce h t (str "prefix") ∧ t <+: u ∧ ∀ t', inForce h t' (str "prefix") → t' <+: u → t'.length ≤ t.length) ∨
      (inForce h t (str "wildcard") ∧ w u t = true ∧ (∀ t', inForce h t' (str "prefix") → ¬t' <+: u) ∧
        ∀ t', inForce h t' (str "wildcard") → w u t' = true → t' = t)) :
    ∃ pub n d, (step w b (.publish s q o u a k wo so)).2 = .ok (.pub pub) ∧ pub.event = some (.event i n d a k) ∧ x ∈ pub.recipients := by
  rcases publish_result hh hlen s q o u a k wo so with ⟨hn, -⟩ | ⟨-, pub, h1, n, -, -, -, h2⟩
  · exact absurd hs hn
  · rcases h2 with ⟨-, -, h2⟩ | ⟨t', i', hsel', h3, -, -, h5, h6⟩
    · exfalso
      rcases hsel with ⟨p1, p2, p3⟩ | ⟨p1, p2, p3, -⟩
      · exact h2 t (.inr (.inl ⟨hu, p1, p2, p3⟩))
      · exact h2 t (.inr (.inr ⟨hu, p3, p1, p2⟩))
    · have ht : t' = t := by
        rcases hsel' with ⟨h, -⟩ | ⟨-, q1, q2, q3⟩ | ⟨-, q1, q2, q3⟩
        · exact absurd h hu
        · rcases hsel with ⟨p1, p2, p3⟩ | ⟨p1, p2, p3, -⟩
          · have : t.length = t'.length := Nat.le_antisymm (q3 t p1 p2) (p3 t' q1 q2)
            rw [List.prefix_iff_eq_take.1 q2, List.prefix_iff_eq_take.1 p2, this]
          · exact absurd q2 (p3 t' q1)
        · rcases hsel with ⟨p1, p2, p3⟩ | ⟨p1, p2, p3, p4⟩
          · exact absurd p2 (q1 t p1)
          · exact p4 t' q2 q3
      subst ht
      have := h6 x i hx
      subst this
      exact ⟨pub, n, _, by simp only [step, h1, Res.map_ok], h3, (h5 x).2 hx⟩

/-- The hypotheses are met by a single prefix subscriber. -/
example : ∃ h b, Hist w h b ∧ attached h 1 ∧ current h 1 (str "a") = some 1 ∧ inForce h (str "a") (str "prefix") ∧ ¬live h (str "ab") := by
  refine ⟨_, _, hist_exec .new [.add (who 1), subWith 1 "a" "prefix"], rfl, rfl, ⟨.inl ⟨rfl, ?_⟩, 1, 1, rfl, rfl⟩, ?_⟩
  · rintro ⟨s, i, h⟩; cases h
  · rw [live_iff (hist_inv (w := w) (hist_exec .new [.add (who 1), subWith 1 "a" "prefix"]) (Nat.le_of_ble_eq_true rfl))]
    rintro ⟨a, ha⟩
    cases ha

/-- **C73 is false**: session 1 subscribed to the prefix `"a"`, session 2 to the topic `"ab"`; both subscriptions match `"ab"`, and only
session 2 receives it. -/
theorem C73_one_subscription : ∃ h b, Hist w h b ∧ inForce h (str "a") (str "prefix") ∧ current h 1 (str "a") = some 1 ∧
    (step w b (pub 1 "ab")).2.map (Event.recipients ⟨pub 1 "ab", .ok ·⟩) = .ok [2] := by
  refine ⟨_, _, hist_exec .new [.add (who 1), .add (who 2), subWith 1 "a" "prefix", sub 2 "ab"], ⟨?_, 1, 1, rfl, rfl⟩, rfl, rfl⟩
  refine .inr (.inl ⟨rfl, ?_⟩)
  rintro ⟨s, i, h⟩; cases h

/-- **C73** what does hold, after every history with fewer than 2^53 calls: an event is delivered to all subscribers of exactly one
subscribed topic or pattern — the published topic itself if it has subscribers, otherwise the longest matching prefix pattern in
force, otherwise one of the matching wildcard patterns in force — and to nobody only if there is none of these.  What is missing are
the subscribers of the other matching patterns (`C73_one_subscription`). -/
theorem C73_selected_partial {h : List Event} {b : State} (hh : Hist w h b) (hlen : h.length < 2 ^ 53)
    (s q : Nat) (o : GoMap) (u : Str) (a : GoSlice) (k : GoMap) (wo : List Str) (so : List Nat) (hs : attached h s) :
    ∃ pub, (step w b (.publish s q o u a k wo so)).2 = .ok (.pub pub) ∧
      ((∃ t, selects w h u t ∧ ∀ x, x ∈ pub.recipients ↔ ∃ i, current h x t = some i) ∨
       (pub.event = none ∧ pub.recipients = [] ∧ ∀ t, ¬selects w h u t)) := by
  rcases publish_result hh hlen s q o u a k wo so with ⟨hn, -⟩ | ⟨-, pub, h1, n, -, -, -, h2⟩
  · exact absurd hs hn
  · refine ⟨pub, by simp only [step, h1, Res.map_ok], ?_⟩
    rcases h2 with ⟨e1, e2, h2⟩ | ⟨t, i, hsel, h3, -, -, h5, h6⟩
    · exact .inr ⟨e1, e2, h2⟩
    · refine .inl ⟨t, hsel, fun x => ?_⟩
      rw [h5]
      exact ⟨fun h => ⟨i, h⟩, fun ⟨j, hj⟩ => by rw [h6 x j hj] at hj; exact hj⟩

/-- **C74 is false**: a publisher that did not ask for `exclude_me: false` receives its own event. -/
theorem C74_publisher_included : ∃ h b, Hist w h b ∧
    (step w b (.publish 1 1 none (str "t") none none [] [])).2.map (Event.recipients ⟨pub 1 "t", .ok ·⟩) = .ok [1] :=
  ⟨_, _, hist_exec .new [.add (who 1), sub 1 "t"], rfl⟩

/-- **C74** what does hold, after every history with fewer than 2^53 calls: the publisher is among the recipients only if it is itself
subscribed to the published topic or to a pattern matching it.  What is missing is that it is left out even then. -/
theorem C74_publisher_partial {h : List Event} {b : State} (hh : Hist w h b) (hlen : h.length < 2 ^ 53)
    (s q : Nat) (o : GoMap) (u : Str) (a : GoSlice) (k : GoMap) (wo : List Str) (so : List Nat) (pub : Publication)
    (hp : (step w b (.publish s q o u a k wo so)).2 = .ok (.pub pub))
    (hno : ∀ t i, current h s t = some i → t ≠ u ∧ ¬t <+: u ∧ w u t = false) : s ∉ pub.recipients := by
  intro hx
  obtain ⟨-, i, n, d, t, -, hc, ht⟩ := C71_recipients_partial hh hlen s q o u a k wo so pub hp s hx
  obtain ⟨n1, n2, n3⟩ := hno t i hc
  rcases ht with h | ⟨h, -⟩ | ⟨h, -⟩
  · exact n1 h
  · exact n2 h
  · rw [n3] at h; cases h

example : (exec w ([], init) [.add (who 1), .add (who 2), sub 1 "x", sub 2 "t", pub 1 "t"]).1.head?.map Event.recipients = some [2] := rfl

/-! ### C75: acknowledgements -/

theorem idGen_mono {h : List Event} {b : State} (hh : Hist w h b) (hlen : h.length < maxID) (op : Op) :
    b.idGen ≤ (step w b op).1.idGen := by
  have hi := hist_inv hh (Nat.le_of_lt hlen)
  have hg : nextID b.idGen = (b.idGen + 1, b.idGen + 1) := nextID_small (Nat.lt_of_le_of_lt hi.gen hlen)
  cases op with
  | add d => simp only [step, addSession]; split <;> exact Nat.le_refl _
  | has t => exact Nat.le_refl _
  | disclose on => exact Nat.le_refl _
  | publish s q o t a k wo so =>
    rcases publish_result hh hlen s q o t a k wo so with ⟨-, -, e⟩ | ⟨-, pub, -, n, hn, e, -⟩
    · simp only [step, e]; exact Nat.le_refl _
    · simp only [step, e, hn]; exact Nat.le_succ _
  | remove s order =>
    simp only [step, removeSession]
    cases hm : b.bySession s with
    | none => exact Nat.le_refl _
    | some m =>
      simp only
      split
      · rename_i b' hb'
        have : ∀ (as : List Nat) (b b' : State), removeLoop s b as = .ok b' → b'.idGen = b.idGen := by
          intro as
          induction as with
          | nil => intro b b' h; cases h; rfl
          | cons a as ih =>
            intro b b' h
            simp only [removeLoop, removeStep] at h
            cases hp : b.byTopic (b.heap a).topic with
            | none => rw [hp] at h; cases h
            | some p => rw [hp] at h; exact (ih _ _ h).trans rfl
        rw [this _ _ _ hb']
        exact Nat.le_refl _
      · exact Nat.le_refl _
      · exact Nat.le_refl _
  | receive s m =>
    simp only [step, receive]
    cases m with
    | subscribe r o t =>
      simp only [subscribe, hg]
      cases b.bySession s with
      | none => exact Nat.le_refl _
      | some m =>
        cases b.byTopic t with
        | none => exact Nat.le_succ _
        | some p => exact Nat.le_refl _
    | unsubscribe r i =>
      simp only [unsubscribe]
      cases b.bySession s with
      | none => exact Nat.le_refl _
      | some m =>
        cases hi : m.get i with
        | none => simp only [hi]; exact Nat.le_refl _
        | some p => simp only [hi]; exact Nat.le_refl _
    | _ => exact Nat.le_refl _

theorem pubID_step {h : List Event} {b : State} (hh : Hist w h b) (hlen : h.length < maxID) (op : Op) (n : Nat)
    (hp : pubID ⟨op, (step w b op).2⟩ = some n) : n = b.idGen + 1 ∧ (step w b op).1.idGen = n := by
  cases op with
  | publish s q o t a k wo so =>
    rcases publish_result hh hlen s q o t a k wo so with ⟨-, e, -⟩ | ⟨-, ⟨ev, rc, ak⟩, e1, n', hn, e2, e3, e4⟩
    · simp only [step, e] at hp; cases hp
    · simp only [step, e1, e2, Res.map_ok] at hp ⊢
      have : n = n' := by
        simp only at e3 e4
        rcases e4 with ⟨e4, -⟩ | ⟨t', i, -, e4, -⟩
        · subst e4
          rw [e3] at hp
          split at hp <;> cases hp
          rfl
        · subst e4
          cases hp; rfl
      subst this
      exact ⟨hn, rfl⟩
  | add d => simp only [step, addSession] at hp; split at hp <;> cases hp
  | has t => cases hp
  | disclose on => cases hp
  | remove s order =>
    simp only [step] at hp
    cases hr : (removeSession b s order).2 <;> rw [hr] at hp <;> cases hp
  | receive s m =>
    simp only [step] at hp
    cases hr : (receive b s m).2 <;> rw [hr] at hp <;> cases hp

theorem pubIDs_spec {h : List Event} {b : State} (hh : Hist w h b) (hlen : h.length ≤ maxID) :
    (h.filterMap pubID).Nodup ∧ ∀ n ∈ h.filterMap pubID, 1 ≤ n ∧ n ≤ b.idGen := by
  induction hh with
  | new => exact ⟨List.nodup_nil, by simp⟩
  | @step h b op hh ih =>
    simp only [List.length_cons] at hlen
    obtain ⟨i1, i2⟩ := ih (by omega)
    have hm := idGen_mono hh (by omega) op
    rw [List.filterMap_cons]
    cases hp : pubID ⟨op, (step w b op).2⟩ with
    | none => exact ⟨i1, fun n hn => ⟨(i2 n hn).1, Nat.le_trans (i2 n hn).2 hm⟩⟩
    | some n =>
      obtain ⟨e1, e2⟩ := pubID_step hh (by omega) op n hp
      refine ⟨List.nodup_cons.2 ⟨fun hn => ?_, i1⟩, ?_⟩
      · have := (i2 n hn).2; omega
      · intro n' hn'
        rcases List.mem_cons.1 hn' with rfl | hn'
        · omega
        · exact ⟨(i2 n' hn').1, Nat.le_trans (i2 n' hn').2 hm⟩

/-- **C75** After every history with fewer than 2^53 calls, an attached publisher gets PUBLISHED if and only if it asked for an
acknowledgement, with its own request ID and, if there is an EVENT, the publication ID of that EVENT; and over all publications of the
history and this one no publication ID occurs twice. -/
theorem C75_acknowledge {h : List Event} {b : State} (hh : Hist w h b) (hlen : h.length < 2 ^ 53)
    (s q : Nat) (o : GoMap) (u : Str) (a : GoSlice) (k : GoMap) (wo : List Str) (so : List Nat) (hs : attached h s) :
    ∃ pub n, (step w b (.publish s q o u a k wo so)).2 = .ok (.pub pub) ∧
      pub.ack = (if o.flag (str "acknowledge") then some (.published q n, s) else none) ∧
      (pub.event = none ∨ ∃ i d, pub.event = some (.event i n d a k)) ∧
      ((⟨.publish s q o u a k wo so, .ok (.pub pub)⟩ :: h).filterMap pubID).Nodup := by
  rcases publish_result hh hlen s q o u a k wo so with ⟨hn, -⟩ | ⟨-, pub, h1, n, -, -, h3, h2⟩
  · exact absurd hs hn
  · have h0 : (step w b (.publish s q o u a k wo so)).2 = .ok (.pub pub) := by simp only [step, h1, Res.map_ok]
    refine ⟨pub, n, h0, h3, ?_, ?_⟩
    · rcases h2 with ⟨h2, -⟩ | ⟨t, i, -, h4, -⟩
      · exact .inl h2
      · exact .inr ⟨i, _, h4⟩
    · have := (pubIDs_spec (hh.step (.publish s q o u a k wo so)) hlen).1
      rw [h0] at this; exact this

/-- Two acknowledged publications. -/
example : (exec w ([], init) [.add (who 1), .publish 1 7 (some [(str "acknowledge", .bool true)]) (str "t") none none [] [], sub 1 "t",
    .publish 1 8 (some [(str "acknowledge", .bool true)]) (str "t") none none [] []]).1.filterMap pubID = [3, 1] := rfl

/-! ### C76: no panic -/

/-- **C76** No call on a broker panics, whatever calls were made before (fewer than 2^53). -/
theorem C76_no_panic {h : List Event} {b : State} (hh : Hist w h b) (hlen : h.length < 2 ^ 53) (op : Op) :
    (step w b op).2 ≠ .panic := by
  have hi := hist_inv hh (Nat.le_of_lt hlen)
  cases op with
  | add d => simp only [step, addSession]; split <;> simp [Res.map]
  | has t => simp [step]
  | disclose on => simp [step]
  | publish s q o t a k wo so =>
    rcases publish_result hh hlen s q o t a k wo so with ⟨-, e, -⟩ | ⟨-, pub, e, -⟩ <;> simp [step, e, Res.map]
  | remove s order => exact (remove_inv hi w s order).2
  | receive s m =>
    simp only [step, receive]
    cases m with
    | subscribe r o t =>
      simp only [subscribe]
      cases b.bySession s with
      | none => simp [Res.map]
      | some m =>
        simp only
        cases b.byTopic t <;> simp [Res.map]
    | unsubscribe r i =>
      simp only [unsubscribe]
      cases b.bySession s with
      | none => simp [Res.map]
      | some m => simp only; cases m.get i <;> simp [Res.map]
    | _ => simp [Res.map]

/-- Removing a session with two subscriptions, one of them shared. -/
example : ∃ h b, Hist w h b ∧ current h 1 (str "t") = some 1 ∧ current h 2 (str "t") = some 1 ∧ (step w b (.remove 1 [2, 1])).2 = .ok .unit :=
  ⟨_, _, hist_exec .new [.add (who 1), .add (who 2), sub 1 "t", sub 2 "t", subWith 1 "u" "wildcard"], rfl, rfl, rfl⟩

/-! ### C77: subscription IDs -/

theorem current_cons {e : Event} {h : List Event} {s : Nat} {t : Str} {i : Nat} (hc : current (e :: h) s t = some i) :
    current h s t = some i ∨ subscribedAs s t i e := by
  unfold current at hc
  split at hc
  · cases ‹_ :: _ = [] ›
  · rename_i heq
    injection heq with h1 h2
    subst h1 h2
    split at hc
    · rename_i hst
      cases hc
      obtain ⟨rfl, rfl⟩ := hst
      exact .inr ⟨_, _, _, _, rfl⟩
    · exact .inl hc
  · rename_i heq
    injection heq with h1 h2
    subst h1 h2
    split at hc
    · cases hc
    · exact .inl hc
  · rename_i heq
    injection heq with h1 h2
    subst h1 h2
    split at hc
    · cases hc
    · exact .inl hc
  · rename_i heq
    injection heq with h1 h2
    subst h1 h2
    exact .inl hc

theorem current_mem {h : List Event} {s : Nat} {t : Str} {i : Nat} (hc : current h s t = some i) :
    ∃ e ∈ h, subscribedAs s t i e := by
  induction h with
  | nil => cases hc
  | cons e h ih =>
    rcases current_cons hc with h1 | h1
    · obtain ⟨e', h2, h3⟩ := ih h1
      exact ⟨e', List.mem_cons_of_mem _ h2, h3⟩
    · exact ⟨e, List.mem_cons_self .., h1⟩

/-- A subscription obtained later was asked for later. -/
theorem current_later {l h : List Event} {s : Nat} {t : Str} {i : Nat} (hc : current (l ++ h) s t = some i)
    (hn : current h s t ≠ some i) : ∃ e ∈ l, subscribedAs s t i e := by
  induction l with
  | nil => exact absurd hc hn
  | cons e l ih =>
    rcases current_cons hc with h1 | h1
    · obtain ⟨e', h2, h3⟩ := ih h1
      exact ⟨e', List.mem_cons_of_mem _ h2, h3⟩
    · exact ⟨e, List.mem_cons_self .., h1⟩

/-- SUBSCRIBED carries the ID others are subscribed with, or a new one. -/
theorem subscribed_step {h : List Event} {b : State} (hi : Inv h b) (hlen : h.length < maxID) {op : Op} {s : Nat} {t : Str} {i : Nat}
    (he : subscribedAs s t i ⟨op, (step w b op).2⟩) :
    (∃ s', current h s' t = some i) ∨ (¬live h t ∧ i = b.idGen + 1 ∧ (step w b op).1.idGen = i) := by
  have hg : nextID b.idGen = (b.idGen + 1, b.idGen + 1) := nextID_small (Nat.lt_of_le_of_lt hi.gen hlen)
  obtain ⟨q, o, q', r, he⟩ := he
  injection he with h1 h2
  subst h1
  simp only [step, receive, subscribe] at h2 ⊢
  cases hm : b.bySession s with
  | none => rw [hm] at h2; cases h2
  | some m =>
    rw [hm] at h2
    simp only at h2
    cases ht : b.byTopic t with
    | some p =>
      rw [ht] at h2
      simp only [Res.map_ok, Res.ok.injEq, newSubscribed, Out.msg.injEq, Msg.subscribed.injEq] at h2
      obtain ⟨-, -, h3, -⟩ := hi.top t p ht
      obtain ⟨x, hx⟩ := List.exists_mem_of_ne_nil _ h3
      exact .inl ⟨x, (hi.cur x t i).2 ⟨p, ht, h2.1.2, hx⟩⟩
    | none =>
      rw [ht] at h2
      simp only [Res.map_ok, Res.ok.injEq, newSubscribed, Out.msg.injEq, Msg.subscribed.injEq, hg] at h2
      refine .inr ⟨?_, h2.1.2.symm, ?_⟩
      · rw [live_iff hi, ht]; rintro ⟨a, ha⟩; cases ha
      · simp only [hg]; exact h2.1.2

theorem sub_ids {h : List Event} {b : State} (hh : Hist w h b) (hlen : h.length ≤ maxID) :
    (∀ e ∈ h, ∀ s t i, subscribedAs s t i e → 1 ≤ i ∧ i ≤ b.idGen) ∧
    ∀ e ∈ h, ∀ e' ∈ h, ∀ s t s' t' i, subscribedAs s t i e → subscribedAs s' t' i e' → t = t' := by
  induction hh with
  | new => exact ⟨by simp, by simp⟩
  | @step h b op hh ih =>
    simp only [List.length_cons] at hlen
    obtain ⟨i1, i2⟩ := ih (by omega)
    have hi := hist_inv hh (by omega)
    have hm := idGen_mono hh (by omega) op
    have key : ∀ s t i, subscribedAs s t i ⟨op, (step w b op).2⟩ →
        (∃ e ∈ h, ∃ s', subscribedAs s' t i e) ∨ (i = b.idGen + 1 ∧ (step w b op).1.idGen = i) := by
      intro s t i he
      rcases subscribed_step hi (by omega) he with ⟨s', h1⟩ | ⟨-, h1⟩
      · obtain ⟨e, he, h2⟩ := current_mem h1
        exact .inl ⟨e, he, s', h2⟩
      · exact .inr h1
    have cross : ∀ s t i, subscribedAs s t i ⟨op, (step w b op).2⟩ → ∀ e ∈ h, ∀ s' t', subscribedAs s' t' i e → t = t' := by
      intro s t i he e' he' s' t' h'
      rcases key s t i he with ⟨e, h1, s'', h2⟩ | ⟨h1, -⟩
      · exact i2 e h1 e' he' s'' t s' t' i h2 h'
      · have := (i1 e' he' s' t' i h').2; omega
    constructor
    · intro e he s t i hs
      rcases List.mem_cons.1 he with rfl | he
      · rcases key s t i hs with ⟨e, h1, s', h2⟩ | ⟨h1, h2⟩
        · have := i1 e h1 s' t i h2; omega
        · omega
      · have := i1 e he s t i hs; omega
    · intro e he e' he' s t s' t' i hs hs'
      rcases List.mem_cons.1 he with rfl | he <;> rcases List.mem_cons.1 he' with rfl | he'
      · obtain ⟨q, o, q', r, k1⟩ := hs
        obtain ⟨q2, o2, q2', r2, k2⟩ := hs'
        rw [k1] at k2
        simp only [Event.mk.injEq, Op.receive.injEq, Msg.subscribe.injEq] at k2
        exact k2.1.2.2.2
      · exact cross s t i hs e' he' s' t' hs'
      · exact (cross s' t' i hs' e he s t hs).symm
      · exact i2 e he e' he' s t s' t' i hs hs'

theorem subscribe_result {h : List Event} {b : State} (hi : Inv h b) (s q : Nat) (o : GoMap) (t : Str) (hs : attached h s) :
    ∃ i, (step w b (.receive s (.subscribe q o t))).2 = .ok (.msg (.subscribed q i) s) ∧ ∀ x j, current h x t = some j → i = j := by
  have hb := hi.bys s
  rw [show (session h s).isSome = true from hs] at hb
  simp only [step, receive, subscribe]
  cases hm : b.bySession s with
  | none => rw [hm] at hb; cases hb
  | some m =>
    simp only
    cases ht : b.byTopic t with
    | some p =>
      refine ⟨(b.heap p).id, rfl, fun x j hj => ?_⟩
      obtain ⟨p', h1, h2, -⟩ := (hi.cur x t j).1 hj
      rw [ht] at h1; cases h1; exact h2
    | none =>
      refine ⟨_, rfl, fun x j hj => ?_⟩
      obtain ⟨p', h1, -⟩ := (hi.cur x t j).1 hj
      rw [ht] at h1; cases h1

/-- **C77** After every history with fewer than 2^53 calls: a subscription ID was never given out for two topics; a SUBSCRIBE by an
attached session is answered, to that session, with its request ID and the ID every present subscriber of the topic holds, or, if there
is no subscriber, with an ID that was not given out before; and subscribing again changes nobody's subscriptions. -/
theorem C77_subscription_ids {h : List Event} {b : State} (hh : Hist w h b) (hlen : h.length < 2 ^ 53) :
    (∀ e ∈ h, ∀ e' ∈ h, ∀ s t s' t' i, subscribedAs s t i e → subscribedAs s' t' i e' → t = t') ∧
    ∀ s q o t, attached h s → ∃ i, (step w b (.receive s (.subscribe q o t))).2 = .ok (.msg (.subscribed q i) s) ∧
      (∀ x j, current h x t = some j → i = j) ∧ (¬live h t → ∀ e ∈ h, ∀ s' t', ¬subscribedAs s' t' i e) ∧
      (∀ j, current h s t = some j → ∀ x u,
        current (⟨.receive s (.subscribe q o t), .ok (.msg (.subscribed q i) s)⟩ :: h) x u = current h x u) := by
  have hi := hist_inv hh (Nat.le_of_lt hlen)
  have hids := sub_ids hh (Nat.le_of_lt hlen)
  refine ⟨hids.2, fun s q o t hs => ?_⟩
  obtain ⟨i, h1, h2⟩ := subscribe_result (w := w) hi s q o t hs
  refine ⟨i, h1, h2, fun hl e he s' t' hsub => ?_, fun j hj x u => ?_⟩
  · rcases subscribed_step (w := w) hi hlen (op := .receive s (.subscribe q o t)) (s := s) (t := t) (i := i)
      ⟨q, o, q, s, by rw [h1]⟩ with ⟨s'', h3⟩ | ⟨-, h3, -⟩
    · exact hl ⟨s'', i, h3⟩
    · have := (hids.1 e he s' t' i hsub).2; omega
  · have := h2 s j hj
    subst this
    simp only [current]
    split
    · rename_i hst; obtain ⟨rfl, rfl⟩ := hst; exact hj.symm
    · rfl

example : ∃ h b, Hist w h b ∧ attached h 2 ∧ current h 1 (str "t") = some 1 ∧ current h 2 (str "u") = some 2 :=
  ⟨_, _, hist_exec .new [.add (who 1), .add (who 2), sub 1 "t", sub 2 "u"], rfl, rfl, rfl⟩

/-! ### C78: UNSUBSCRIBE -/

theorem hist_append {l h : List Event} {b : State} (hh : Hist w (l ++ h) b) : ∃ b', Hist w h b' := by
  induction l generalizing b with
  | nil => exact ⟨b, hh⟩
  | cons e l ih => cases hh; exact ih ‹_›

/-- **C78** After every history with fewer than 2^53 calls, UNSUBSCRIBE for ID `i` by an attached session `s` succeeds if and only if `s`
is subscribed under `i`; it is answered to `s` with its request ID; otherwise nothing changes. -/
theorem C78_unsubscribe {h : List Event} {b : State} (hh : Hist w h b) (hlen : h.length < 2 ^ 53) (s q i : Nat) :
    ((∃ t, current h s t = some i) ∧ (step w b (.receive s (.unsubscribe q i))).2 = .ok (.msg (.unsubscribed q) s)) ∨
    ((∀ t, current h s t ≠ some i) ∧ step w b (.receive s (.unsubscribe q i)) = (b, .err)) := by
  have hi := hist_inv hh (Nat.le_of_lt hlen)
  simp only [step, receive, unsubscribe]
  cases hm : b.bySession s with
  | none =>
    refine .inr ⟨fun t hc => ?_, rfl⟩
    obtain ⟨p, p1, p2, p3⟩ := (hi.cur s t i).1 hc
    obtain ⟨m, m1, -⟩ := hi.ses' t p s p1 p3
    rw [hm] at m1; cases m1
  | some m =>
    simp only
    cases hg : m.get i with
    | none =>
      refine .inr ⟨fun t hc => ?_, rfl⟩
      obtain ⟨p, p1, p2, p3⟩ := (hi.cur s t i).1 hc
      obtain ⟨m', m1, m2⟩ := hi.ses' t p s p1 p3
      rw [hm] at m1; cases m1
      rw [p2, hg] at m2; cases m2
    | some a =>
      obtain ⟨h1, h2, h3⟩ := hi.ses s m i a hm hg
      exact .inl ⟨⟨_, (hi.cur s _ i).2 ⟨a, h1, h2, h3⟩⟩, rfl⟩

/-- **C78** After a successful UNSUBSCRIBE, `s` receives no EVENT under that subscription as long as it does not subscribe to the topic
again, whatever else happens (`l`). -/
theorem C78_no_more_events {l h : List Event} {b : State} {s q i : Nat} {r : Out}
    (hh : Hist w (l ++ ⟨.receive s (.unsubscribe q i), .ok r⟩ :: h) b)
    (hlen : (l ++ ⟨.receive s (.unsubscribe q i), .ok r⟩ :: h).length < 2 ^ 53) (t : Str) (ht : current h s t = some i)
    (hl : ∀ e ∈ l, ¬asksFor s t e)
    (s' q' : Nat) (o : GoMap) (u : Str) (a : GoSlice) (k : GoMap) (wo : List Str) (so : List Nat) (pub : Publication)
    (hp : (step w b (.publish s' q' o u a k wo so)).2 = .ok (.pub pub)) (n : Nat) (d : GoMap)
    (hev : pub.event = some (.event i n d a k)) : s ∉ pub.recipients := by
  intro hx
  obtain ⟨-, i', n', d', t', h1, hc, -⟩ := C71_recipients_partial hh hlen s' q' o u a k wo so pub hp s hx
  rw [hev] at h1
  cases h1
  have hn : current (⟨.receive s (.unsubscribe q i), .ok r⟩ :: h) s t' ≠ some i := by
    simp only [current]
    split
    · simp
    · rename_i hne; intro e; exact hne ⟨trivial, e⟩
  obtain ⟨e, he, hs⟩ := current_later hc hn
  obtain ⟨e0, he0, hs0⟩ := current_mem ht
  have htt := (sub_ids hh (Nat.le_of_lt hlen)).2 e (List.mem_append_left _ he) e0
    (List.mem_append_right _ (List.mem_cons_of_mem _ he0)) s t' s t i hs hs0
  subst htt
  obtain ⟨q1, o1, q2, r2, rfl⟩ := hs
  exact hl _ he ⟨q1, o1, rfl⟩

/-- **C78** Unsubscribing (or removing) one session takes the subscription from nobody else: every other subscriber of the topic still
receives the events published on it, under the same ID. -/
theorem C78_others_keep {h : List Event} {b : State} (hh : Hist w h b) (hlen : h.length + 1 < 2 ^ 53) (s : Nat) (op : Op)
    (hop : (∃ q i, op = .receive s (.unsubscribe q i)) ∨ ∃ order, op = .remove s order) (x : Nat) (hx : x ≠ s) (t : Str) (i : Nat)
    (ht : current h x t = some i)
    (p q' : Nat) (o : GoMap) (a : GoSlice) (k : GoMap) (wo : List Str) (so : List Nat)
    (hp : attached (⟨op, (step w b op).2⟩ :: h) p) :
    ∃ pub n d, (step w (step w b op).1 (.publish p q' o t a k wo so)).2 = .ok (.pub pub) ∧ pub.event = some (.event i n d a k) ∧
      x ∈ pub.recipients := by
  have hc : current (⟨op, (step w b op).2⟩ :: h) x t = some i := by
    rcases hop with ⟨q, j, rfl⟩ | ⟨order, rfl⟩ <;> cases hr : (step w b _).2 <;>
      simp only [current, Ne.symm hx, false_and, if_false, ht]
  obtain ⟨pub, j, n, d, h1, h2, -, h3⟩ := C70_exact_delivery (hh.step op) hlen p q' o t a k wo so hp ⟨x, i, hc⟩
  have hxp := (h3 x).1.2 ⟨i, hc⟩
  have := (h3 x).2 hxp
  rw [hc] at this; cases this
  exact ⟨pub, n, d, h1, h2, hxp⟩

example : ∃ h b, Hist w h b ∧ current h 1 (str "t") = some 1 ∧ current h 2 (str "t") = some 1 ∧
    (step w b (.receive 1 (.unsubscribe 9 1))).2 = .ok (.msg (.unsubscribed 9) 1) ∧
    (exec w (h, b) [.receive 1 (.unsubscribe 9 1), pub 1 "t"]).1.head?.map Event.recipients = some [2] :=
  ⟨_, _, hist_exec .new [.add (who 1), .add (who 2), sub 1 "t", sub 2 "t"], rfl, rfl, rfl, rfl⟩

/-! ### C79: sessions that are not attached -/

/-- **C79** After every history with fewer than 2^53 calls, SUBSCRIBE, UNSUBSCRIBE and PUBLISH by a session that is not attached fail
and change nothing. -/
theorem C79_not_attached {h : List Event} {b : State} (hh : Hist w h b) (hlen : h.length < 2 ^ 53) (s : Nat) (hs : ¬attached h s)
    (op : Op) (hop : (∃ m, op = .receive s m) ∨ ∃ q o t a k wo so, op = .publish s q o t a k wo so) : step w b op = (b, .err) := by
  have hi := hist_inv hh (Nat.le_of_lt hlen)
  have hn : b.bySession s = none := by
    have := hi.bys s
    rw [show (session h s).isSome = false by simpa [attached] using hs] at this
    simpa using this
  rcases hop with ⟨m, rfl⟩ | ⟨q, o, t, a, k, wo, so, rfl⟩
  · cases m <;> simp [step, receive, subscribe, unsubscribe, hn, Res.map]
  · simp [step, publish, hn, Res.map]

/-- A removed session is not attached. -/
example : ∃ h b, Hist w h b ∧ ¬attached h 1 ∧ current h 2 (str "t") = some 1 :=
  ⟨_, _, hist_exec .new [.add (who 1), .add (who 2), sub 1 "t", sub 2 "t", .remove 1 []], by simp [attached, exec]; rfl, rfl⟩

/-! ### C80: disclosure -/

/-- **C80** After every history with fewer than 2^53 calls, an EVENT carries the publisher's session ID, auth ID, role and the topic if
disclosure is switched on, and no details at all if it is not. -/
theorem C80_disclosure {h : List Event} {b : State} (hh : Hist w h b) (hlen : h.length < 2 ^ 53)
    (s q : Nat) (o : GoMap) (u : Str) (a : GoSlice) (k : GoMap) (wo : List Str) (so : List Nat) (pub : Publication)
    (hp : (step w b (.publish s q o u a k wo so)).2 = .ok (.pub pub)) (i n : Nat) (d : GoMap)
    (he : pub.event = some (.event i n d a k)) :
    (disclosed h = false ∧ d = some []) ∨
    (disclosed h = true ∧ ∃ p, session h s = some p ∧ d = some [(str "publisher", .u64 s), (str "publisher_authid", .str p.authID),
      (str "publisher_authrole", .str p.authRole), (str "topic", .str u)]) := by
  rcases publish_result hh hlen s q o u a k wo so with ⟨-, e, -⟩ | ⟨hs, pub', h1, n', -, -, -, h2⟩
  · simp only [step, e] at hp; cases hp
  · simp only [step, h1, Res.map_ok, Res.ok.injEq, Out.pub.injEq] at hp
    subst hp
    rcases h2 with ⟨h2, -⟩ | ⟨t, j, -, h3, -⟩
    · rw [h2] at he; cases he
    · rw [h3] at he
      simp only [Option.some.injEq, Msg.event.injEq] at he
      obtain ⟨-, -, rfl, -⟩ := he
      simp only [detailsSpec]
      cases hd : disclosed h with
      | false => exact .inl ⟨rfl, rfl⟩
      | true =>
        obtain ⟨p, hp⟩ := Option.isSome_iff_exists.1 hs
        exact .inr ⟨rfl, p, hp, by simp [hp]⟩

/-- Switched on. -/
example : ∃ h b, Hist w h b ∧ disclosed h = true ∧ ∃ p, (step w b (pub 1 "t")).2 = .ok (.pub p) ∧
    p.event = some (.event 1 2 (some [(str "publisher", .u64 1), (str "publisher_authid", .str (str "bob")),
      (str "publisher_authrole", .str (str "r")), (str "topic", .str (str "t"))]) none none) :=
  ⟨_, _, hist_exec .new [.add ⟨1, [], str "bob", str "r", [], false, none, none⟩, .disclose true, sub 1 "t"], rfl, _, rfl, rfl⟩

/-! ### C81: removing a session -/

/-- **C81** After every history with fewer than 2^53 calls, RemoveSession succeeds exactly for attached sessions and otherwise changes
nothing; after it the session can be added again. -/
theorem C81_remove {h : List Event} {b : State} (hh : Hist w h b) (hlen : h.length + 1 < 2 ^ 53) (s : Nat) (order : List Nat) :
    (attached h s ∧ (step w b (.remove s order)).2 = .ok .unit ∧
      ∀ d : SessionDetails, d.id = s → (step w (step w b (.remove s order)).1 (.add d)).2 = .ok .unit) ∨
    (¬attached h s ∧ step w b (.remove s order) = (b, .err)) := by
  have hi := hist_inv hh (by simp only [maxID]; omega)
  have hb := hi.bys s
  have hi' := hist_inv (hh.step (.remove s order)) (by simp only [List.length_cons, maxID]; omega)
  have hnp := (remove_inv hi w s order).2
  cases hm : b.bySession s with
  | none =>
    rw [hm] at hb
    exact .inr ⟨by simp [attached, ← hb], by simp [step, removeSession, hm, Res.map]⟩
  | some m =>
    rw [hm] at hb
    have hok : (step w b (.remove s order)).2 = .ok .unit := by
      simp only [step, removeSession, hm] at hnp ⊢
      split
      · rfl
      · rename_i he
        exfalso
        have : ∀ (as : List Nat) (b : State), removeLoop s b as ≠ .err := by
          intro as
          induction as with
          | nil => intro b h; cases h
          | cons a as ih =>
            intro b h
            simp only [removeLoop, removeStep] at h
            cases hp : b.byTopic (b.heap a).topic with
            | none => rw [hp] at h; cases h
            | some p => rw [hp] at h; exact ih _ h
        exact this _ _ he
      · rename_i he; rw [he] at hnp; exact absurd rfl hnp
    refine .inl ⟨hb.symm, hok, fun d hd => ?_⟩
    have := hi'.bys s
    rw [hok] at this
    simp only [session, if_true] at this
    simp only [step, addSession, hd, Res.map]
    rw [hok] at hi'
    have hn : ((removeSession b s order).1.bySession s).isSome = false := by
      have := hi'.bys s; simpa [session, step] using this
    rw [if_neg (by simp [hn])]
    rfl

/-- **C81** After a removal, the session receives nothing until it subscribes again, even if it is added again. -/
theorem C81_no_more_events {l h : List Event} {b : State} {s : Nat} {order : List Nat} {r : Out}
    (hh : Hist w (l ++ ⟨.remove s order, .ok r⟩ :: h) b) (hlen : (l ++ ⟨.remove s order, .ok r⟩ :: h).length < 2 ^ 53)
    (hl : ∀ e ∈ l, ∀ t, ¬asksFor s t e)
    (s' q' : Nat) (o : GoMap) (u : Str) (a : GoSlice) (k : GoMap) (wo : List Str) (so : List Nat) (pub : Publication)
    (hp : (step w b (.publish s' q' o u a k wo so)).2 = .ok (.pub pub)) : s ∉ pub.recipients := by
  intro hx
  obtain ⟨-, i, n, d, t, -, hc, -⟩ := C71_recipients_partial hh hlen s' q' o u a k wo so pub hp s hx
  have hn : current (⟨.remove s order, .ok r⟩ :: h) s t ≠ some i := by simp [current]
  obtain ⟨e, he, q1, o1, q2, r2, rfl⟩ := current_later hc hn
  exact hl _ he t ⟨q1, o1, rfl⟩

example : (exec w ([], init) [.add (who 1), .add (who 2), sub 1 "t", sub 2 "t", .remove 1 [], .add (who 1), pub 1 "t"]).1.head?.map
    Event.recipients = some [2] := rfl

/-! ### C82: HasSubscription -/

/-- **C82** After every history with fewer than 2^53 calls, HasSubscription says whether some attached session is subscribed to exactly
that topic or pattern, and changes nothing. -/
theorem C82_has_subscription {h : List Event} {b : State} (hh : Hist w h b) (hlen : h.length < 2 ^ 53) (t : Str) :
    ∃ r, step w b (.has t) = (b, .ok (.bool r)) ∧ (r = true ↔ ∃ s i, attached h s ∧ current h s t = some i) := by
  have hi := hist_inv hh (Nat.le_of_lt hlen)
  refine ⟨_, rfl, ?_⟩
  have hl := live_iff hi t
  simp only [hasSubscription, Option.isSome_iff_exists]
  rw [← hl]
  constructor
  · rintro ⟨s, i, hc⟩
    refine ⟨s, i, ?_, hc⟩
    obtain ⟨p, p1, p2, p3⟩ := (hi.cur s t i).1 hc
    obtain ⟨m, m1, -⟩ := hi.ses' t p s p1 p3
    have := hi.bys s
    rw [m1] at this
    exact this.symm
  · rintro ⟨s, i, -, hc⟩; exact ⟨s, i, hc⟩

example : ∃ h b, Hist w h b ∧ (step w b (.has (str "t"))).2 = .ok (.bool true) ∧ (step w b (.has (str "u"))).2 = .ok (.bool false) :=
  ⟨_, _, hist_exec .new [.add (who 1), .add (who 2), sub 1 "t", sub 2 "u", .remove 2 []], rfl, rfl⟩

end Wamp.Broker
