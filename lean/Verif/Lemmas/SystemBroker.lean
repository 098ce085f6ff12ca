import Verif.Lemmas.System
import Verif.Props.Broker
import Verif.Lemmas.Dealer
/-!
# Clients and the broker
-/
namespace Wamp.System
open Session

variable {w : Str → Str → Bool}

/-- The requests among messages. -/
abbrev reqs (l : List Msg) : List (Nat × Nat) := l.filterMap request

/-- What client `s` has in its tables, or will have when it has worked off what is under way to it, fits what the broker knows. -/
structure BI (s : Nat) (bh : List Broker.Event) (st : Session.State) (up down sent : List Msg) : Prop where
  acc : AllAcc fromBroker st down
  subs : ∀ t i, Broker.current bh s t = some i → (after st down .subscriptions i).isSome = true
  sub : ∀ r o t, .subscribe r o t ∈ up → (after st down .subscribe r).isSome = true
  uns : ∀ r g, .unsubscribe r g ∈ up → after st down .unsubscribe r = some g
  pub : ∀ r o t a k, .publish r o t a k ∈ up → o.flag (str "acknowledge") = true → (after st down .publish r).isSome = true
  nod : (reqs up).Nodup
  used : ∀ k ∈ reqs up, k ∈ reqs sent
  ans : ∀ m ∈ down, fromBroker m → ∀ k, answers m = some k → k ∈ reqs sent
  fr : ∀ m ∈ down, fromBroker m ∨ fromDealer m

variable {s : Nat} {bh bh' : List Broker.Event} {st : Session.State} {up down sent : List Msg}

theorem BI.init : BI s [] Session.init [] [] [] := by
  refine ⟨trivial, ?_, ?_, ?_, ?_, ?_, ?_, ?_, ?_⟩ <;> simp [Broker.current]

theorem BI.hist (h : BI s bh st up down sent) (hc : ∀ t i, Broker.current bh' s t = some i → Broker.current bh s t = some i) :
    BI s bh' st up down sent :=
  ⟨h.acc, fun t i k => h.subs t i (hc t i k), h.sub, h.uns, h.pub, h.nod, h.used, h.ans, h.fr⟩

theorem BI.take {m : Msg} (h : BI s bh st (m :: up) down sent) : BI s bh st up down sent := by
  refine ⟨h.acc, h.subs, fun r o t hm => h.sub r o t (.tail _ hm), fun r g hm => h.uns r g (.tail _ hm),
    fun r o t a k hm => h.pub r o t a k (.tail _ hm), ?_, ?_, h.ans, h.fr⟩
  · exact h.nod.sublist (List.Sublist.filterMap _ (List.sublist_cons_self ..))
  · exact fun k hk => h.used k (List.Sublist.subset (List.Sublist.filterMap _ (List.sublist_cons_self ..)) hk)

theorem BI.deliver {m : Msg} (h : BI s bh st up (m :: down) sent) : BI s bh (next st m) up down sent :=
  ⟨h.acc.2, h.subs, h.sub, h.uns, h.pub, h.nod, h.used, fun m' hm' => h.ans m' (.tail _ hm'), fun m' hm' => h.fr m' (.tail _ hm')⟩

theorem after_sameB {st1 : Session.State} {X : Tab → Nat → Prop} (hd : ∀ m ∈ down, fromBroker m ∨ fromDealer m)
    (hX : ∀ t k, X t k → ∃ n, kind t = some n ∧ ∀ m ∈ down, fromBroker m → answers m ≠ some (n, k))
    (hs : ∀ t k, brokerTab t → ¬X t k → st t k = st1 t k) :
    (∀ t k, brokerTab t → ¬X t k → after st down t k = after st1 down t k) ∧
      (AllAcc fromBroker st down → AllAcc fromBroker st1 down) := by
  induction down generalizing st st1 with
  | nil => exact ⟨hs, fun h => h⟩
  | cons m q ih =>
    obtain ⟨h1, h2⟩ := next_sameB (hd m (.head _)) (fun t k hx => by
      obtain ⟨n, hk, hn⟩ := hX t k hx
      exact ⟨n, hk, hn m (.head _)⟩) hs
    obtain ⟨h3, h4⟩ := ih (fun m' hm' => hd m' (.tail _ hm')) (fun t k hx => by
      obtain ⟨n, hk, hn⟩ := hX t k hx
      exact ⟨n, hk, fun m' hm' => hn m' (.tail _ hm')⟩) h1
    exact ⟨h3, fun h => ⟨fun hm => (h2 hm).1 (h.1 hm), h4 h.2⟩⟩

/-- What sending does to the tables. -/
theorem send_effect {data b : Str} {m : Msg} {c : Session.State} (h : (send (.ok data) m).run st = (c, .ok b)) :
    (∃ t r v n, request m = some (n, r) ∧ kind t = some n ∧ c t r = some v ∧ (∀ t' k', ¬(t' = t ∧ k' = r) → c t' k' = st t' k') ∧
      (∀ r' g, m = .unsubscribe r' g → v = g) ∧ (∀ r' g, m = .unregister r' g → v = g)) ∨
    ((request m = none ∨ ∃ r o t a k, m = .publish r o t a k ∧ o.flag (str "acknowledge") = false) ∧
      ∀ t' k', t' ≠ .invocation → c t' k' = st t' k') := by
  cases m <;> simp only [send, Prog.run, Prod.mk.injEq, reduceCtorEq, and_false] at h
  case call r _ _ _ _ _ =>
    exact .inl ⟨.call, r, 0, 48, rfl, rfl, by rw [← h.1]; simp [State.put], by
      rw [← h.1]; intro t' k' hne; by_cases ht : t' = .call
      · subst ht; simp [State.put, FMap.set_apply]; intro hk; exact absurd ⟨rfl, hk⟩ hne
      · simp [State.put, ht], by simp, by simp⟩
  case register r _ _ =>
    exact .inl ⟨.register, r, 0, 64, rfl, rfl, by rw [← h.1]; simp [State.put], by
      rw [← h.1]; intro t' k' hne; by_cases ht : t' = .register
      · subst ht; simp [State.put, FMap.set_apply]; intro hk; exact absurd ⟨rfl, hk⟩ hne
      · simp [State.put, ht], by simp, by simp⟩
  case unregister r g =>
    exact .inl ⟨.unregister, r, g, 66, rfl, rfl, by rw [← h.1]; simp [State.put], by
      rw [← h.1]; intro t' k' hne; by_cases ht : t' = .unregister
      · subst ht; simp [State.put, FMap.set_apply]; intro hk; exact absurd ⟨rfl, hk⟩ hne
      · simp [State.put, ht], by simp, by simp⟩
  case subscribe r _ _ =>
    exact .inl ⟨.subscribe, r, 0, 32, rfl, rfl, by rw [← h.1]; simp [State.put], by
      rw [← h.1]; intro t' k' hne; by_cases ht : t' = .subscribe
      · subst ht; simp [State.put, FMap.set_apply]; intro hk; exact absurd ⟨rfl, hk⟩ hne
      · simp [State.put, ht], by simp, by simp⟩
  case unsubscribe r g =>
    cases hg : st .subscriptions g with
    | none => simp [hg, Prog.run] at h
    | some v =>
      simp only [hg, Prog.run, Prod.mk.injEq] at h
      exact .inl ⟨.unsubscribe, r, g, 34, rfl, rfl, by rw [← h.1]; simp [State.put], by
        rw [← h.1]; intro t' k' hne; by_cases ht : t' = .unsubscribe
        · subst ht; simp [State.put, FMap.set_apply]; intro hk; exact absurd ⟨rfl, hk⟩ hne
        · simp [State.put, ht], by simp, by simp⟩
  case publish r o t a k =>
    cases ho : o.flag (str "acknowledge") with
    | true =>
      simp only [ho, if_true, Prog.run, Prod.mk.injEq] at h
      exact .inl ⟨.publish, r, 0, 16, rfl, rfl, by rw [← h.1]; simp [State.put], by
        rw [← h.1]; intro t' k' hne; by_cases ht : t' = .publish
        · subst ht; simp [State.put, FMap.set_apply]; intro hk; exact absurd ⟨rfl, hk⟩ hne
        · simp [State.put, ht], by simp, by simp⟩
    | false =>
      simp only [ho, Bool.false_eq_true, if_false, Prog.run, Prod.mk.injEq] at h
      exact .inr ⟨.inr ⟨_, _, _, _, _, rfl, ho⟩, fun t' k' _ => by rw [← h.1]⟩
  case yield r o _ _ _ =>
    refine .inr ⟨.inl rfl, ?_⟩
    split at h <;> simp only [Prog.run, Prod.mk.injEq] at h <;> intro t' k' hne <;> rw [← h.1]
    simp [State.put, hne]
  case error t r _ _ _ _ =>
    refine .inr ⟨.inl rfl, ?_⟩
    split at h <;> simp only [Prog.run, Prod.mk.injEq, reduceCtorEq, and_false] at h
    intro t' k' hne
    rw [← h.1]
    simp [State.put, hne]
  case goodbye => exact .inr ⟨.inl rfl, fun t' k' _ => by rw [← h.1]⟩

theorem reqs_append (l : List Msg) (m : Msg) : reqs (l ++ [m]) = reqs l ++ (request m).toList := by
  simp only [reqs, List.filterMap_append, List.filterMap_cons, List.filterMap_nil]
  cases request m <;> rfl

theorem reqs_cons (l : List Msg) (m : Msg) : reqs (m :: l) = (request m).toList ++ reqs l := by
  simp only [reqs, List.filterMap_cons]
  cases request m <;> rfl

theorem mem_reqs {l : List Msg} {m : Msg} {k : Nat × Nat} (hm : m ∈ l) (hk : request m = some k) : k ∈ reqs l :=
  List.mem_filterMap.2 ⟨m, hm, hk⟩

theorem dealer_answers {m : Msg} {n k : Nat} (hm : fromDealer m) (hk : answers m = some (n, k)) : n = 48 ∨ n = 64 ∨ n = 66 := by
  cases m <;> simp only [fromDealer] at hm <;> simp only [answers, Option.some.injEq, Prod.mk.injEq, reduceCtorEq] at hk
  all_goals omega

theorem broker_kind {t : Tab} {n : Nat} (ht : brokerTab t) (hk : kind t = some n) : n = 16 ∨ n = 32 ∨ n = 34 := by
  cases t <;> simp only [brokerTab] at ht <;> simp only [kind, Option.some.injEq, reduceCtorEq] at hk
  all_goals omega

theorem kind_inj {t t' : Tab} {n : Nat} (h : kind t = some n) (h' : kind t' = some n) : t = t' := by
  cases t <;> simp only [kind, Option.some.injEq, reduceCtorEq] at h <;> subst h <;> cases t' <;> simp_all [kind]

theorem BI.send {data b : Str} {m : Msg} {c : Session.State} (h : BI s bh st up down sent) (hs : (send (.ok data) m).run st = (c, .ok b))
    (hf : (reqs (m :: sent)).Nodup) : BI s bh c (up ++ [m]) down (m :: sent) := by
  have hused : ∀ k ∈ reqs sent, k ∈ reqs (m :: sent) := fun k hk => by rw [reqs_cons]; exact List.mem_append.2 (.inr hk)
  have hnew : ∀ k, request m = some k → k ∉ reqs sent := by
    intro k hk
    rw [reqs_cons, hk] at hf
    exact (List.nodup_cons.1 hf).1
  have hnod : (reqs (up ++ [m])).Nodup := by
    rw [reqs_append]
    refine List.nodup_append.2 ⟨h.nod, by cases request m <;> simp, ?_⟩
    intro a ha b hb
    have := h.used a ha
    rintro rfl
    exact hnew a (by simpa using hb) this
  have hus : ∀ k ∈ reqs (up ++ [m]), k ∈ reqs (m :: sent) := by
    intro k hk
    rw [reqs_append] at hk
    rcases List.mem_append.1 hk with hk | hk
    · exact hused k (h.used k hk)
    · rw [reqs_cons]; exact List.mem_append.2 (.inl hk)
  have hans : ∀ m' ∈ down, fromBroker m' → ∀ k, answers m' = some k → k ∈ reqs (m :: sent) := fun m' hm' hb k hk => hused k (h.ans m' hm' hb k hk)
  rcases send_effect hs with ⟨t, r, v, n, e1, e2, e3, e4, e5, e6⟩ | ⟨e1, e2⟩
  · have hX : ∀ t' k', (t' = t ∧ k' = r) → ∃ n, kind t' = some n ∧ ∀ m ∈ down, fromBroker m → answers m ≠ some (n, k') := by
      rintro _ _ ⟨rfl, rfl⟩
      exact ⟨n, e2, fun m' hm' hb hk => hnew _ e1 (h.ans m' hm' hb _ hk)⟩
    obtain ⟨k1, k2⟩ := after_sameB (st := st) (st1 := c) (X := fun t' k' => t' = t ∧ k' = r) h.fr hX (fun t' k' _ hx => (e4 t' k' hx).symm)
    have hT : ∀ t' k', brokerTab t' → ¬(t' = t ∧ k' = r) → after c down t' k' = after st down t' k' := fun t' k' ht hx => (k1 t' k' ht hx).symm
    have hkeep : brokerTab t → after c down t r = some v := by
      intro ht
      rw [← e3]
      refine after_keep e2 fun m' hm' hk => ?_
      rcases h.fr m' hm' with hb | hd
      · exact hnew _ e1 (h.ans m' hm' hb _ hk)
      · have h1 := dealer_answers hd hk
        have h2 := broker_kind ht e2
        omega
    have hold : ∀ m' ∈ up, ∀ r', request m' = some (n, r') → r' ≠ r := by
      rintro m' hm' r' hr' rfl
      exact hnew _ e1 (h.used _ (mem_reqs hm' hr'))
    refine ⟨k2 h.acc, ?_, ?_, ?_, ?_, hnod, hus, hans, h.fr⟩
    · intro t' i hc
      rw [hT .subscriptions i trivial (by rintro ⟨rfl, -⟩; cases e2)]
      exact h.subs t' i hc
    · intro r' o t' hm'
      by_cases hx : Tab.subscribe = t ∧ r' = r
      · obtain ⟨rfl, rfl⟩ := hx
        rw [hkeep trivial]; rfl
      · rw [hT .subscribe _ trivial hx]
        rcases List.mem_append.1 hm' with hm' | hm'
        · exact h.sub r' o t' hm'
        · simp only [List.mem_singleton] at hm'
          subst hm'
          cases e1
          exact absurd ⟨kind_inj rfl e2, rfl⟩ hx
    · intro r' g hm'
      by_cases hx : Tab.unsubscribe = t ∧ r' = r
      · obtain ⟨rfl, rfl⟩ := hx
        cases e2
        rcases List.mem_append.1 hm' with hm' | hm'
        · exact absurd rfl (hold _ hm' r' rfl)
        · simp only [List.mem_singleton] at hm'
          rw [hkeep trivial, e5 r' g hm'.symm]
      · rw [hT .unsubscribe _ trivial hx]
        rcases List.mem_append.1 hm' with hm' | hm'
        · exact h.uns r' g hm'
        · simp only [List.mem_singleton] at hm'
          subst hm'
          cases e1
          exact absurd ⟨kind_inj rfl e2, rfl⟩ hx
    · intro r' o t' a k hm' ho
      by_cases hx : Tab.publish = t ∧ r' = r
      · obtain ⟨rfl, rfl⟩ := hx
        rw [hkeep trivial]; rfl
      · rw [hT .publish _ trivial hx]
        rcases List.mem_append.1 hm' with hm' | hm'
        · exact h.pub r' o t' a k hm' ho
        · simp only [List.mem_singleton] at hm'
          subst hm'
          cases e1
          exact absurd ⟨kind_inj rfl e2, rfl⟩ hx
  · obtain ⟨k1, k2⟩ := after_sameB (st := st) (st1 := c) (X := fun _ _ => False) h.fr (by simp)
      (fun t' k' ht _ => (e2 t' k' (by rintro rfl; exact ht)).symm)
    have hT : ∀ t' k', brokerTab t' → after c down t' k' = after st down t' k' := fun t' k' ht => (k1 t' k' ht (by simp)).symm
    have hm : ∀ m' ∈ up ++ [m], m' ∈ up ∨ m' = m := fun m' hm' => by simpa using hm'
    refine ⟨k2 h.acc, ?_, ?_, ?_, ?_, hnod, hus, hans, h.fr⟩
    · intro t' i hc
      rw [hT .subscriptions _ trivial]
      exact h.subs t' i hc
    · intro r' o t' hm'
      rw [hT .subscribe _ trivial]
      rcases hm _ hm' with hm' | rfl
      · exact h.sub r' o t' hm'
      · rcases e1 with e1 | ⟨r, o, t, a, k, e1, -⟩ <;> cases e1
    · intro r' g hm'
      rw [hT .unsubscribe _ trivial]
      rcases hm _ hm' with hm' | rfl
      · exact h.uns r' g hm'
      · rcases e1 with e1 | ⟨r, o, t, a, k, e1, -⟩ <;> cases e1
    · intro r' o t' a k hm' ho
      rw [hT .publish _ trivial]
      rcases hm _ hm' with hm' | rfl
      · exact h.pub r' o t' a k hm' ho
      · rcases e1 with e1 | ⟨_, _, _, _, _, e1, e2⟩
        · cases e1
        · cases e1
          rw [ho] at e2; cases e2

/-- A message of the dealer is sent. -/
theorem BI.postD {m : Msg} (h : BI s bh st up down sent) (hm : fromDealer m) : BI s bh st up (down ++ [m]) sent := by
  have hnb : ¬fromBroker m := by cases m <;> simp_all [fromBroker, fromDealer]
  have hT : ∀ t k, brokerTab t → after st (down ++ [m]) t k = after st down t k := by
    intro t k ht
    rw [after_append]
    simp only [after]
    cases m <;> simp only [fromDealer] at hm <;> simp only [next, recv, Prog.run]
    case result r d _ _ _ =>
      cases after st down .call r <;> simp only [Prog.run]
      split <;> simp only [Prog.run]
      cases t <;> first | rfl | exact ht.elim
    case registered r d =>
      cases after st down .register r <;> simp only [Prog.run] <;> cases t <;> first | rfl | exact ht.elim
    case unregistered r =>
      cases after st down .unregister r <;> simp only [Prog.run]
      rename_i g
      cases after st down .registrations g <;> simp only [Prog.run] <;> cases t <;> first | rfl | exact ht.elim
    case invocation r g _ _ _ _ =>
      cases after st down .registrations g <;> simp only [Prog.run] <;> cases t <;> first | rfl | exact ht.elim
    case error tt r _ _ _ _ =>
      rcases hm with rfl | rfl <;> simp only [errorTab, Prog.run]
      · cases after st down .call r <;> simp only [Prog.run] <;> cases t <;> first | rfl | exact ht.elim
      · cases after st down .register r <;> simp only [Prog.run] <;> cases t <;> first | rfl | exact ht.elim
  refine ⟨?_, ?_, ?_, ?_, ?_, h.nod, h.used, ?_, ?_⟩
  · exact (allAcc_append ..).2 ⟨h.acc, fun hb => absurd hb hnb, trivial⟩
  · intro t i hc; rw [hT .subscriptions _ trivial]; exact h.subs t i hc
  · intro r o t hu; rw [hT .subscribe _ trivial]; exact h.sub r o t hu
  · intro r g hu; rw [hT .unsubscribe _ trivial]; exact h.uns r g hu
  · intro r o t a k hu ho; rw [hT .publish _ trivial]; exact h.pub r o t a k hu ho
  · intro m' hm' hb
    rcases List.mem_append.1 hm' with hm' | hm'
    · exact h.ans m' hm' hb
    · simp only [List.mem_singleton] at hm'
      subst hm'
      exact absurd hb hnb
  · intro m' hm'
    rcases List.mem_append.1 hm' with hm' | hm'
    · exact h.fr m' hm'
    · simp only [List.mem_singleton] at hm'
      subst hm'
      exact .inr hm

/-- EVENTs for a subscription that the client has are sent. -/
theorem BI.postEvent {q : List Msg} (h : BI s bh st up down sent)
    (hq : ∀ m ∈ q, ∃ i n d a k t, m = .event i n d a k ∧ Broker.current bh s t = some i) : BI s bh st up (down ++ q) sent := by
  induction q generalizing down with
  | nil => simpa using h
  | cons m q ih =>
    rw [List.append_cons]
    refine ih ?_ fun m' hm' => hq m' (.tail _ hm')
    obtain ⟨i, n, d, a, k, t, rfl, hc⟩ := hq m (.head _)
    have hi := h.subs t i hc
    have hT : after st (down ++ [.event i n d a k]) = after st down := by
      rw [after_append]
      simp only [after, next, recv, Prog.run]
      cases after st down .subscriptions i <;> rfl
    refine ⟨?_, ?_, ?_, ?_, ?_, h.nod, h.used, ?_, ?_⟩
    · refine (allAcc_append ..).2 ⟨h.acc, fun _ => ?_, trivial⟩
      simp only [Accepts, recv, Prog.run]
      cases hh : after st down .subscriptions i with
      | none => rw [hh] at hi; cases hi
      | some _ => rfl
    · rw [hT]; exact h.subs
    · rw [hT]; exact h.sub
    · rw [hT]; exact h.uns
    · rw [hT]; exact h.pub
    · intro m' hm' hb
      rcases List.mem_append.1 hm' with hm' | hm'
      · exact h.ans m' hm' hb
      · simp only [List.mem_singleton] at hm'
        subst hm'
        intro k hk; cases hk
    · intro m' hm'
      rcases List.mem_append.1 hm' with hm' | hm'
      · exact h.fr m' hm'
      · simp only [List.mem_singleton] at hm'
        subst hm'
        exact .inl trivial

/-- PUBLISHED is sent. -/
theorem BI.postPublished {r n : Nat} {o : GoMap} {t : Str} {a : GoSlice} {k : GoMap} (h : BI s bh st (.publish r o t a k :: up) down sent)
    (ho : o.flag (str "acknowledge") = true) : BI s bh st up (down ++ [.published r n]) sent := by
  have hp := h.pub r o t a k (.head _) ho
  have hn : ∀ k' ∈ reqs up, k' ≠ (16, r) := by
    have := h.nod
    rw [reqs_cons] at this
    rintro k' hk' rfl
    exact (List.nodup_cons.1 this).1 hk'
  have hT : ∀ t' k', after st (down ++ [.published r n]) t' k' = if t' = .publish ∧ k' = r then none else after st down t' k' := by
    intro t' k'
    rw [after_append]
    simp only [after, next, recv, Prog.run]
    cases after st down .publish r <;> simp only [Prog.run] <;> by_cases h1 : t' = .publish <;> by_cases h2 : k' = r <;>
      simp [State.put, FMap.del_apply, h1, h2]
  have h' := h.take
  refine ⟨?_, ?_, ?_, ?_, ?_, h'.nod, h'.used, ?_, ?_⟩
  · refine (allAcc_append ..).2 ⟨h.acc, fun _ => ?_, trivial⟩
    simp only [Accepts, recv, Prog.run]
    cases hh : after st down .publish r with
    | none => rw [hh] at hp; cases hp
    | some _ => rfl
  · intro t i hc; rw [hT]; simpa using h.subs t i hc
  · intro r' o t hu; rw [hT]; simpa using h'.sub r' o t hu
  · intro r' g hu; rw [hT]; simpa using h'.uns r' g hu
  · intro r' o t a k hu ho
    have : r' ≠ r := fun e => hn _ (mem_reqs hu rfl) (by rw [e])
    rw [hT]
    simpa [this] using h'.pub r' o t a k hu ho
  · intro m' hm' hb
    rcases List.mem_append.1 hm' with hm' | hm'
    · exact h.ans m' hm' hb
    · simp only [List.mem_singleton] at hm'
      subst hm'
      intro k hk
      cases hk
      exact h.used _ (mem_reqs (.head _) rfl)
  · intro m' hm'
    rcases List.mem_append.1 hm' with hm' | hm'
    · exact h.fr m' hm'
    · simp only [List.mem_singleton] at hm'
      subst hm'
      exact .inl trivial

/-- SUBSCRIBED is sent. -/
theorem BI.postSubscribed {r i : Nat} {o : GoMap} {t : Str} (h : BI s bh st (.subscribe r o t :: up) down sent)
    (hc : ∀ t' j, Broker.current bh' s t' = some j → j = i ∨ Broker.current bh s t' = some j) :
    BI s bh' st up (down ++ [.subscribed r i]) sent := by
  have hp := h.sub r o t (.head _)
  obtain ⟨v, hv⟩ := Option.isSome_iff_exists.1 hp
  have hT : ∀ t' k', after st (down ++ [.subscribed r i]) t' k' = if t' = .subscriptions ∧ k' = i then some 0 else after st down t' k' := by
    intro t' k'
    rw [after_append]
    simp only [after, next, recv, Prog.run, hv]
    by_cases h1 : t' = .subscriptions <;> by_cases h2 : k' = i <;> simp [State.put, FMap.set_apply, h1, h2]
  have h' := h.take
  refine ⟨?_, ?_, ?_, ?_, ?_, h'.nod, h'.used, ?_, ?_⟩
  · refine (allAcc_append ..).2 ⟨h.acc, fun _ => ?_, trivial⟩
    simp only [Accepts, recv, Prog.run, hv]
  · intro t j hcur
    rw [hT]
    by_cases hj : j = i
    · simp [hj]
    · rcases hc t j hcur with hh | hh
      · exact absurd hh hj
      · simpa [hj] using h.subs t j hh
  · intro r' o t hu; rw [hT]; simpa using h'.sub r' o t hu
  · intro r' g hu; rw [hT]; simpa using h'.uns r' g hu
  · intro r' o t a k hu ho; rw [hT]; simpa using h'.pub r' o t a k hu ho
  · intro m' hm' hb
    rcases List.mem_append.1 hm' with hm' | hm'
    · exact h.ans m' hm' hb
    · simp only [List.mem_singleton] at hm'
      subst hm'
      intro k hk
      cases hk
      exact h.used _ (mem_reqs (.head _) rfl)
  · intro m' hm'
    rcases List.mem_append.1 hm' with hm' | hm'
    · exact h.fr m' hm'
    · simp only [List.mem_singleton] at hm'
      subst hm'
      exact .inl trivial

/-- UNSUBSCRIBED is sent. -/
theorem BI.postUnsubscribed {r i : Nat} {t : Str} (h : BI s bh st (.unsubscribe r i :: up) down sent)
    (ht : Broker.current bh s t = some i)
    (hc : ∀ t' j, Broker.current bh' s t' = some j → j ≠ i ∧ Broker.current bh s t' = some j) :
    BI s bh' st up (down ++ [.unsubscribed r]) sent := by
  have hv := h.uns r i (.head _)
  obtain ⟨v, hg⟩ := Option.isSome_iff_exists.1 (h.subs t i ht)
  have hT : ∀ t' k', after st (down ++ [.unsubscribed r]) t' k' = if t' = .subscriptions ∧ k' = i then none else after st down t' k' := by
    intro t' k'
    rw [after_append]
    simp only [after, next, recv, Prog.run, hv, hg]
    by_cases h1 : t' = .subscriptions <;> by_cases h2 : k' = i <;> simp [State.put, FMap.del_apply, h1, h2]
  have h' := h.take
  refine ⟨?_, ?_, ?_, ?_, ?_, h'.nod, h'.used, ?_, ?_⟩
  · refine (allAcc_append ..).2 ⟨h.acc, fun _ => ?_, trivial⟩
    simp only [Accepts, recv, Prog.run, hv, hg]
  · intro t j hcur
    rw [hT]
    obtain ⟨k1, k2⟩ := hc t j hcur
    simpa [k1] using h.subs t j k2
  · intro r' o t hu; rw [hT]; simpa using h'.sub r' o t hu
  · intro r' g hu; rw [hT]; simpa using h'.uns r' g hu
  · intro r' o t a k hu ho; rw [hT]; simpa using h'.pub r' o t a k hu ho
  · intro m' hm' hb
    rcases List.mem_append.1 hm' with hm' | hm'
    · exact h.ans m' hm' hb
    · simp only [List.mem_singleton] at hm'
      subst hm'
      intro k hk
      cases hk
      exact h.used _ (mem_reqs (.head _) rfl)
  · intro m' hm'
    rcases List.mem_append.1 hm' with hm' | hm'
    · exact h.fr m' hm'
    · simp only [List.mem_singleton] at hm'
      subst hm'
      exact .inl trivial

/-! ### The whole system -/

theorem onDealer_some {x y : Sys} {op : Dealer.Op} (h : x.onDealer w op = some y) :
    (Dealer.step w x.dealer op).2 ≠ .panic ∧
    y = { x with dealer := (Dealer.step w x.dealer op).1, dh := ⟨op, (Dealer.step w x.dealer op).2⟩ :: x.dh } := by
  simp only [Sys.onDealer] at h
  split at h
  · cases h
  · rename_i r hr
    cases h
    exact ⟨hr, rfl⟩

/-- A call on the broker that is not a message. -/
def adminB : Broker.Op → Prop
  | .add _ | .remove .. | .disclose _ => True
  | _ => False

/-- A call on the dealer that is not a message. -/
def adminD : Dealer.Op → Prop
  | .add _ | .remove .. | .disclose _ => True
  | _ => False

/-- The call on the broker that a message of `s` leads to. -/
def callB (s : Nat) (m : Msg) (wo : List Str) (so : List Nat) : Option Broker.Op :=
  match m with
  | .publish q o t a k => some (.publish s q o t a k wo so)
  | .subscribe .. | .unsubscribe .. => some (.receive s m)
  | _ => none

/-- Messages for the dealer. -/
def forDealer : Msg → Prop
  | .call .. | .yield .. | .register .. | .unregister .. | .error .. => True
  | _ => False

/-- What an action does. -/
inductive Change (w : Str → Str → Bool) (x : Sys) : Sys → Prop where
  | admin (bop dop j) : adminB bop → adminD dop → (Dealer.step w x.dealer dop).2 ≠ .panic → Change w x { x with
      broker := (Broker.step w x.broker bop).1, bh := ⟨bop, (Broker.step w x.broker bop).2⟩ :: x.bh,
      dealer := (Dealer.step w x.dealer dop).1, dh := ⟨dop, (Dealer.step w x.dealer dop).2⟩ :: x.dh, joined := j }
  | send (s data m c b) : (send (.ok data) m).run (x.client s) = (c, .ok b) → Change w x { x with
      client := upd x.client s c, up := upd x.up s (x.up s ++ [m]), sent := upd x.sent s (m :: x.sent s) }
  | deliver (s m rest) : x.down s = m :: rest → Change w x { x with
      client := upd x.client s (next (x.client s) m), down := upd x.down s rest }
  | broker (s m rest wo so op) : x.up s = m :: rest → callB s m wo so = some op → Change w x { x with
      broker := (Broker.step w x.broker op).1, bh := ⟨op, (Broker.step w x.broker op).2⟩ :: x.bh, up := upd x.up s rest,
      down := fun s' => x.down s' ++ messagesFor s' (brokerOut (Broker.step w x.broker op).2) }
  | dealer (s m rest wo rnd) : x.up s = m :: rest → forDealer m → (Dealer.step w x.dealer (.receive s m wo rnd)).2 ≠ .panic →
      Change w x { x with
        dealer := (Dealer.step w x.dealer (.receive s m wo rnd)).1,
        dh := ⟨.receive s m wo rnd, (Dealer.step w x.dealer (.receive s m wo rnd)).2⟩ :: x.dh, up := upd x.up s rest,
        down := fun s' => x.down s' ++ messagesFor s' (dealerOut (Dealer.step w x.dealer (.receive s m wo rnd)).2) }
  | ignore (s m rest) : x.up s = m :: rest → callB s m [] [] = none → ¬forDealer m → Change w x { x with up := upd x.up s rest }

theorem act_change {x y : Sys} {a : Action} (h : x.act w a = some y) : Change w x y := by
  cases a <;> simp only [Sys.act] at h
  case join d =>
    split at h
    · cases h
    · obtain ⟨h1, rfl⟩ := onDealer_some h
      exact .admin (.add d) (.add d) _ trivial trivial h1
  case leave s o o' =>
    obtain ⟨h1, rfl⟩ := onDealer_some h
    exact .admin (.remove s o) (.remove s o') _ trivial trivial h1
  case disclose p c =>
    obtain ⟨h1, rfl⟩ := onDealer_some h
    exact .admin (.disclose p) (.disclose c) _ trivial trivial h1
  case send s data m =>
    split at h
    · rename_i c b hr
      split at h
      · cases h
        exact .send s data m c b hr
      · cases h
    · cases h
  case deliver s =>
    split at h
    · cases h
    · rename_i m rest hd
      cases h
      exact .deliver s m rest hd
  case route s wo so rnd =>
    split at h
    · cases h
    · rename_i m rest hu
      have key : forDealer m → ((({ x with up := upd x.up s rest } : Sys).onDealer w (.receive s m wo rnd)).map fun y =>
          y.post (dealerOut (Dealer.step w x.dealer (.receive s m wo rnd)).2)) = some y → Change w x y := by
        intro hm h
        obtain ⟨z, hz, rfl⟩ := Option.map_eq_some_iff.1 h
        obtain ⟨h1, rfl⟩ := onDealer_some hz
        exact .dealer s m rest wo rnd hu hm h1
      cases m <;> simp only [Sys.handle] at h
      case publish q o t a k =>
        cases h
        exact .broker s _ rest wo so (.publish s q o t a k wo so) hu rfl
      case subscribe q o t =>
        cases h
        exact .broker s _ rest wo so (.receive s (.subscribe q o t)) hu rfl
      case unsubscribe q g =>
        cases h
        exact .broker s _ rest wo so (.receive s (.unsubscribe q g)) hu rfl
      all_goals first | exact key trivial h | (cases h; exact .ignore s _ rest hu rfl (fun h => h))

theorem hist_change {x y : Sys} (h : Change w x y) (ih : Broker.Hist w x.bh x.broker ∧ Dealer.Hist w x.dh x.dealer) :
    Broker.Hist w y.bh y.broker ∧ Dealer.Hist w y.dh y.dealer := by
  obtain ⟨hb, hd⟩ := ih
  cases h with
  | admin bop dop j h1 h2 h3 => exact ⟨hb.step bop, hd.step dop h3⟩
  | send s data m c b h1 => exact ⟨hb, hd⟩
  | deliver s m rest h1 => exact ⟨hb, hd⟩
  | broker s m rest wo so op h1 h2 => exact ⟨hb.step op, hd⟩
  | dealer s m rest wo rnd h1 h2 h3 => exact ⟨hb, hd.step _ h3⟩
  | ignore s m rest h1 => exact ⟨hb, hd⟩

theorem reach_hist {x : Sys} (h : Reach w x) : Broker.Hist w x.bh x.broker ∧ Dealer.Hist w x.dh x.dealer := by
  induction h with
  | new => exact ⟨.new, .new⟩
  | act a _ ha ih => exact hist_change (act_change ha) ih

/-- Histories and what clients sent only grow. -/
theorem change_grows {x y : Sys} (h : Change w x y) :
    (x.bh.length ≤ y.bh.length) ∧ (x.dh.length ≤ y.dh.length) ∧ ∀ s, (x.sent s) <:+ (y.sent s) := by
  cases h with
  | admin bop dop j h1 h2 h3 => exact ⟨Nat.le_succ _, Nat.le_succ _, fun s => List.suffix_refl _⟩
  | send s data m c b h1 =>
    refine ⟨Nat.le_refl _, Nat.le_refl _, fun s' => ?_⟩
    simp only [upd]
    split
    · rename_i e; subst e; exact List.suffix_cons ..
    · exact List.suffix_refl _
  | deliver s m rest h1 => exact ⟨Nat.le_refl _, Nat.le_refl _, fun s => List.suffix_refl _⟩
  | broker s m rest wo so op h1 h2 => exact ⟨Nat.le_succ _, Nat.le_refl _, fun s => List.suffix_refl _⟩
  | dealer s m rest wo rnd h1 h2 h3 => exact ⟨Nat.le_refl _, Nat.le_succ _, fun s => List.suffix_refl _⟩
  | ignore s m rest h1 => exact ⟨Nat.le_refl _, Nat.le_refl _, fun s => List.suffix_refl _⟩

theorem Fresh.back {x y : Sys} {s : Nat} (h : Change w x y) (hf : Fresh y s) : Fresh x s :=
  List.Nodup.sublist (List.Sublist.filterMap _ ((change_grows h).2.2 s).sublist) hf

theorem messagesFor_nil (s : Nat) : messagesFor s [] = [] := rfl

theorem messagesFor_one (s s' : Nat) (m : Msg) : messagesFor s' [(s, m)] = if s = s' then [m] else [] := by
  by_cases h : s = s' <;> simp [messagesFor, h]

theorem messagesFor_append (s : Nat) (l l' : List (Nat × Msg)) : messagesFor s (l ++ l') = messagesFor s l ++ messagesFor s l' := by
  simp [messagesFor]

/-- What the dealer sends are messages of a dealer. -/
theorem dealerOut_from (b : Dealer.State) (s : Nat) (m : Msg) (order : List Str) (rnd : Nat) :
    ∀ p ∈ dealerOut (Dealer.step w b (.receive s m order rnd)).2, fromDealer p.2 := by
  intro p hp
  simp only [Dealer.step] at hp
  cases hr : (Dealer.receive w b s m order rnd).2 with
  | err => rw [hr] at hp; cases hp
  | panic => rw [hr] at hp; cases hp
  | ok v =>
    rw [hr] at hp
    simp only [Res.map_ok, dealerOut, List.mem_singleton] at hp
    subst hp
    simp only
    cases m <;> simp only [Dealer.receive, reduceCtorEq] at hr
    case call r o p a k bin =>
      rcases Dealer.call_cases w b s r o p a k bin order rnd with ⟨-, e⟩ | ⟨e, -⟩ | ⟨_, _, _, _, -, -, -, -, ⟨-, e⟩ | ⟨c, -, -, e⟩⟩ <;>
        rw [e] at hr <;> cases hr
      · exact .inl rfl
      · simp only [Dealer.invocationFor]; split <;> trivial
    case yield r o a k bin =>
      rcases Dealer.yield_cases b r o a k bin with ⟨-, e⟩ | ⟨p, -, -, ⟨-, e⟩ | ⟨c, -, e⟩⟩ <;> rw [e] at hr <;> cases hr
      simp only [Dealer.resultFor]; split <;> trivial
    case register r o p =>
      rcases Dealer.register_cases b s r o p with ⟨-, e⟩ | ⟨_, -, ⟨_, -, -, e⟩ | ⟨_, -, -, e⟩ | ⟨-, e⟩⟩ <;> rw [e] at hr <;> cases hr
      · exact .inr rfl
      · trivial
      · trivial
    case unregister r i =>
      rcases Dealer.unregister_cases b s r i with e | e | ⟨_, _, -, -, e, -⟩ <;> rw [e] at hr <;> cases hr
      trivial
    case error t r d u a k =>
      rcases Dealer.error_cases b t r d u a k with ⟨-, e⟩ | ⟨-, p, -, e⟩ <;> rw [e] at hr <;> cases hr
      exact .inl rfl

theorem BI.postsD {q : List Msg} (h : BI s bh st up down sent) (hq : ∀ m ∈ q, fromDealer m) : BI s bh st up (down ++ q) sent := by
  induction q generalizing down with
  | nil => simpa using h
  | cons m q ih =>
    rw [List.append_cons]
    exact ih (h.postD (hq m (.head _))) fun m' hm' => hq m' (.tail _ hm')

theorem current_admin {bop : Broker.Op} (hb : adminB bop) (r : Res Broker.Out) (s : Nat) (t : Str) (i : Nat)
    (h : Broker.current (⟨bop, r⟩ :: bh) s t = some i) : Broker.current bh s t = some i := by
  cases bop <;> simp only [adminB] at hb <;> cases r <;> simp only [Broker.current] at h <;> try exact h
  split at h
  · cases h
  · exact h

theorem current_publish {sid req : Nat} {o : GoMap} {t : Str} {a : GoSlice} {k : GoMap} {wo : List Str} {so : List Nat} (r : Res Broker.Out)
    (s : Nat) (t' : Str) : Broker.current (⟨.publish sid req o t a k wo so, r⟩ :: bh) s t' = Broker.current bh s t' := rfl

theorem upd_same {α : Type} (f : Nat → α) (s : Nat) (v : α) : upd f s v s = v := by simp [upd]
theorem upd_other {α : Type} (f : Nat → α) {s s' : Nat} (v : α) (h : s' ≠ s) : upd f s v s' = f s' := by simp [upd, h]

theorem subscribed_of {b : Broker.State} {s q : Nat} {o : GoMap} {t : Str} :
    (Broker.step w b (.receive s (.subscribe q o t))).2 = .err ∨
    ∃ i, (Broker.step w b (.receive s (.subscribe q o t))).2 = .ok (.msg (.subscribed q i) s) := by
  simp only [Broker.step, Broker.receive, Broker.subscribe]
  split
  · exact .inl rfl
  · split <;> exact .inr ⟨_, rfl⟩

theorem reach_bi {x : Sys} (h : Reach w x) (s : Nat) (hlen : x.bh.length ≤ 2 ^ 53) (hf : Fresh x s) :
    BI s x.bh (x.client s) (x.up s) (x.down s) (x.sent s) := by
  induction h with
  | new => exact BI.init
  | act a hx ha ih =>
    have hc := act_change ha
    have ih := ih (Nat.le_trans (change_grows hc).1 hlen) (hf.back hc)
    obtain ⟨hbh, hdh⟩ := reach_hist hx
    cases hc with
    | admin bop dop j h1 h2 h3 => exact ih.hist fun t i => current_admin h1 _ s t i
    | send s' data m c b h1 =>
      by_cases hs : s = s'
      · subst hs
        simp only [upd_same]
        refine ih.send h1 ?_
        simpa only [Fresh, upd_same] using hf
      · simpa only [upd_other _ _ hs] using ih
    | deliver s' m rest h1 =>
      by_cases hs : s = s'
      · subst hs
        simp only [upd_same]
        rw [h1] at ih
        exact ih.deliver
      · simpa only [upd_other _ _ hs] using ih
    | dealer s' m rest wo rnd h1 h2 h3 =>
      rename_i x' y'
      have hq : ∀ m' ∈ messagesFor s (dealerOut (Dealer.step w x'.dealer (.receive s' m wo rnd)).2), fromDealer m' := by
        intro m' hm'
        simp only [messagesFor, List.mem_map, List.mem_filter] at hm'
        obtain ⟨p, ⟨hp, -⟩, rfl⟩ := hm'
        exact dealerOut_from _ _ _ _ _ p hp
      by_cases hs : s = s'
      · subst hs
        simp only [upd_same]
        rw [h1] at ih
        exact ih.take.postsD hq
      · simp only [upd_other _ _ hs]
        exact ih.postsD hq
    | ignore s' m rest h1 =>
      by_cases hs : s = s'
      · subst hs
        simp only [upd_same]
        rw [h1] at ih
        exact ih.take
      · simpa only [upd_other _ _ hs] using ih
    | broker s' m rest wo so op h1 h2 =>
      rename_i x' y'
      have hlt : x'.bh.length < 2 ^ 53 := hlen
      have htake : BI s x'.bh (x'.client s) (upd x'.up s' rest s) (x'.down s) (x'.sent s) := by
        by_cases hs : s = s'
        · subst hs
          rw [h1] at ih
          simpa only [upd_same] using ih.take
        · simpa only [upd_other _ _ hs] using ih
      cases m <;> simp only [callB, Option.some.injEq, reduceCtorEq] at h2 <;> subst h2
      case subscribe q o t =>
        rcases subscribed_of (w := w) (b := x'.broker) (s := s') (q := q) (o := o) (t := t) with e | ⟨i, e⟩
        · simp only [e, brokerOut, messagesFor_nil, List.append_nil]
          exact htake.hist fun t i h => h
        · simp only [e, brokerOut, messagesFor_one]
          by_cases hs : s = s'
          · subst hs
            rw [h1] at ih
            simp only [upd_same, if_true]
            refine ih.postSubscribed fun t' j hj => ?_
            simp only [Broker.current] at hj
            split at hj
            · cases hj; exact .inl rfl
            · exact .inr hj
          · simp only [if_neg (Ne.symm hs), List.append_nil]
            refine htake.hist fun t' j hj => ?_
            simpa [Broker.current, Ne.symm hs] using hj
      case unsubscribe q g =>
        rcases Broker.C78_unsubscribe hbh hlt s' q g with ⟨⟨t, ht⟩, e⟩ | ⟨-, e⟩
        · simp only [e, brokerOut, messagesFor_one]
          by_cases hs : s = s'
          · subst hs
            rw [h1] at ih
            simp only [upd_same, if_true]
            refine ih.postUnsubscribed ht fun t' j hj => ?_
            simp only [Broker.current, true_and] at hj
            split at hj
            · cases hj
            · rename_i hne
              exact ⟨fun e => hne (by rw [hj, e]), hj⟩
          · simp only [if_neg (Ne.symm hs), List.append_nil]
            refine htake.hist fun t' j hj => ?_
            simpa [Broker.current, Ne.symm hs] using hj
        · simp only [e, brokerOut, messagesFor_nil, List.append_nil]
          exact htake.hist fun t i h => h
      case publish q o t a k =>
        rcases Broker.publish_result hbh hlt s' q o t a k wo so with ⟨-, e, -⟩ | ⟨-, pub, e, n, -, -, e2, e3⟩
        · have hp : (Broker.step w x'.broker (.publish s' q o t a k wo so)).2 = .err := by simp [Broker.step, e]
          simp only [hp, brokerOut, messagesFor_nil, List.append_nil]
          exact htake.hist fun t i h => h
        · have hev : ∀ m' ∈ messagesFor s (match pub.event with | some m => pub.recipients.map fun s => (s, m) | none => []),
              ∃ i n d a k t, m' = .event i n d a k ∧ Broker.current x'.bh s t = some i := by
            intro m' hm'
            rcases e3 with ⟨e3, -⟩ | ⟨t', i, -, e3, -, -, e4, -⟩
            · rw [e3] at hm'; cases hm'
            · rw [e3] at hm'
              simp only [messagesFor, List.mem_map, List.mem_filter, decide_eq_true_eq] at hm'
              obtain ⟨p, ⟨⟨s'', hs'', rfl⟩, rfl⟩, rfl⟩ := hm'
              exact ⟨i, _, _, _, _, t', rfl, (e4 _).1 hs''⟩
          have hp : (Broker.step w x'.broker (.publish s' q o t a k wo so)).2 = .ok (.pub pub) := by simp [Broker.step, e]
          simp only [hp, brokerOut, messagesFor_append]
          rw [← List.append_assoc]
          refine BI.hist (bh := x'.bh) ?_ fun t i h => h
          rw [e2]
          by_cases ho : o.flag (str "acknowledge") = true
          · simp only [ho, if_true, messagesFor_one]
            by_cases hs : s = s'
            · subst hs
              rw [h1] at ih
              simp only [upd_same, if_true]
              exact (ih.postEvent hev).postPublished ho
            · simp only [if_neg (Ne.symm hs), List.append_nil]
              exact htake.postEvent hev
          · simp only [ho, if_false, Bool.false_eq_true, messagesFor_nil, List.append_nil]
            exact htake.postEvent hev

end Wamp.System
