import Verif.Lemmas.SystemBroker
import Verif.Props.Dealer
import Verif.Lemmas.DealerWho
/-!
# Clients and the dealer
-/
namespace Wamp.System
open Session

variable {w : Str → Str → Bool}
variable {s : Nat} {st T : Session.State} {up down sent : List Msg} {b b' : Dealer.State}

/-! ### What messages do to the tables for calling and registering -/

theorem next_broker {m : Msg} (hm : fromBroker m) {t : Tab} (ht : dealerTab t) (k : Nat) : next T m t k = T t k := by
  cases m <;> simp only [fromBroker] at hm <;> simp only [next, recv, Prog.run]
  case published r n => cases T .publish r <;> simp only [Prog.run] <;> cases t <;> first | rfl | exact ht.elim
  case subscribed r g => cases T .subscribe r <;> simp only [Prog.run] <;> cases t <;> first | rfl | exact ht.elim
  case unsubscribed r =>
    cases T .unsubscribe r <;> simp only [Prog.run]
    rename_i g
    cases T .subscriptions g <;> simp only [Prog.run] <;> cases t <;> first | rfl | exact ht.elim
  case event g _ _ _ _ => cases T .subscriptions g <;> simp only [Prog.run]

theorem next_result (r : Nat) (d : GoMap) (a : GoSlice) (k : GoMap) (bin : Bin) (t : Tab) (j : Nat) :
    next T (.result r d a k bin) t j = if t = .call ∧ j = r ∧ d.flag (str "progress") = false then none else T t j := by
  simp only [next, recv, Prog.run]
  cases h : T .call r <;> simp only [Prog.run]
  · split
    · rename_i e; obtain ⟨rfl, rfl, -⟩ := e; rw [h]
    · rfl
  · rw [show optProgress = str "progress" from rfl]
    cases hd : d.flag (str "progress") <;> simp [Prog.run]
    by_cases h1 : t = .call <;> by_cases h2 : j = r <;> simp [State.put, FMap.del_apply, h1, h2]

theorem next_error {n : Nat} {tab : Tab} (hn : errorTab n = some tab) (r : Nat) (d : GoMap) (u : Str) (a : GoSlice) (k : GoMap) (t : Tab) (j : Nat) :
    next T (.error n r d u a k) t j = if t = tab ∧ j = r then none else T t j := by
  simp only [next, recv, Prog.run, hn]
  cases h : T tab r <;> simp only [Prog.run] <;> by_cases h1 : t = tab <;> by_cases h2 : j = r <;> simp [State.put, FMap.del_apply, h1, h2]

theorem next_registered {r : Nat} (hr : (T .register r).isSome = true) (g : Nat) (t : Tab) (j : Nat) :
    next T (.registered r g) t j = if t = .register ∧ j = r then none else if t = .registrations ∧ j = g then some 0 else T t j := by
  obtain ⟨v, hv⟩ := Option.isSome_iff_exists.1 hr
  simp only [next, recv, Prog.run, hv]
  by_cases h1 : t = .register
  · subst h1; by_cases h2 : j = r <;> simp [State.put, FMap.del_apply, h2]
  · by_cases h3 : t = .registrations
    · subst h3; by_cases h2 : j = g <;> simp [State.put, FMap.set_apply, h2]
    · simp [State.put, h1, h3]

theorem next_unregistered {r g : Nat} (hr : T .unregister r = some g) (t : Tab) (j : Nat) :
    next T (.unregistered r) t j = if t = .registrations ∧ j = g then none else T t j := by
  simp only [next, recv, Prog.run, hr]
  cases h : T .registrations g <;> simp only [Prog.run] <;> by_cases h1 : t = .registrations <;> by_cases h2 : j = g <;>
    simp [State.put, FMap.del_apply, h1, h2]

theorem next_invocation (i g : Nat) (d : GoMap) (a : GoSlice) (k : GoMap) (bin : Bin) {t : Tab} (ht : dealerTab t) (j : Nat) :
    next T (.invocation i g d a k bin) t j = T t j := by
  simp only [next, recv, Prog.run]
  cases T .registrations g <;> simp only [Prog.run]
  cases t <;> first | rfl | exact ht.elim

/-- Entries that do not concern a message do not matter for it (calling and registering). -/
theorem next_sameD {st st1 : Session.State} {X : Tab → Nat → Prop} {m : Msg} (hm : fromBroker m ∨ fromDealer m)
    (hX : ∀ t k, X t k → ∃ n, kind t = some n ∧ (fromDealer m → answers m ≠ some (n, k)))
    (hs : ∀ t k, dealerTab t → ¬X t k → st t k = st1 t k) :
    (∀ t k, dealerTab t → ¬X t k → next st m t k = next st1 m t k) ∧ (fromDealer m → (Accepts st m ↔ Accepts st1 m)) := by
  rcases hm with hm | hm
  · refine ⟨fun t k ht hk => ?_, fun h => ?_⟩
    · rw [next_broker hm ht, next_broker hm ht]; exact hs t k ht hk
    · cases m <;> simp only [fromBroker] at hm <;> exact h.elim
  have hreg : ∀ g, st .registrations g = st1 .registrations g := fun g =>
    hs _ g trivial fun hx => by obtain ⟨n, h, -⟩ := hX _ _ hx; simp [kind] at h
  have hask : ∀ t n r, dealerTab t → kind t = some n → answers m = some (n, r) → st t r = st1 t r := by
    intro t n r ht hk ha
    refine hs _ _ ht fun hx => ?_
    obtain ⟨n', h, h'⟩ := hX _ _ hx
    rw [hk] at h
    cases h
    exact h' hm ha
  cases m <;> simp only [fromDealer] at hm
  case result r d a k bin =>
    have hr := hask .call 48 r trivial rfl rfl
    refine ⟨fun t k ht hk => ?_, fun _ => ?_⟩
    · rw [next_result, next_result, hs t k ht hk]
    · simp only [Accepts, recv, Prog.run, hr]
      cases st1 .call r <;> simp only [Prog.run]
      split <;> simp [Prog.run]
  case error n r d u a k =>
    rcases hm with rfl | rfl
    · have hr := hask .call 48 r trivial rfl rfl
      refine ⟨fun t k ht hk => ?_, fun _ => ?_⟩
      · rw [next_error rfl, next_error rfl, hs t k ht hk]
      · simp only [Accepts, recv, Prog.run, hr, errorTab]
        cases st1 .call r <;> simp [Prog.run]
    · have hr := hask .register 64 r trivial rfl rfl
      refine ⟨fun t k ht hk => ?_, fun _ => ?_⟩
      · rw [next_error rfl, next_error rfl, hs t k ht hk]
      · simp only [Accepts, recv, Prog.run, hr, errorTab]
        cases st1 .register r <;> simp [Prog.run]
  case registered r g =>
    have hr := hask .register 64 r trivial rfl rfl
    cases h : st1 .register r with
    | none =>
      rw [h] at hr
      refine ⟨fun t k ht hk => ?_, fun _ => ?_⟩
      · have := hs t k ht hk
        simp only [next, recv, Prog.run, h, hr]
        by_cases h1 : t = .register
        · subst h1; by_cases h2 : k = r <;> simp [State.put, FMap.del_apply, h2, this]
        · simp [State.put, h1, this]
      · simp only [Accepts, recv, Prog.run, hr, h]
    | some v =>
      rw [h] at hr
      refine ⟨fun t k ht hk => ?_, fun _ => ?_⟩
      · rw [next_registered (by rw [hr]; rfl), next_registered (by rw [h]; rfl), hs t k ht hk]
      · simp only [Accepts, recv, Prog.run, hr, h]
  case unregistered r =>
    have hr := hask .unregister 66 r trivial rfl rfl
    cases h : st1 .unregister r with
    | none =>
      rw [h] at hr
      refine ⟨fun t k ht hk => ?_, fun _ => ?_⟩
      · simp only [next, recv, Prog.run, h, hr]; exact hs t k ht hk
      · simp only [Accepts, recv, Prog.run, hr, h]
    | some g =>
      rw [h] at hr
      refine ⟨fun t k ht hk => ?_, fun _ => ?_⟩
      · rw [next_unregistered hr, next_unregistered h, hs t k ht hk]
      · simp only [Accepts, recv, Prog.run, hr, h, hreg]
        cases st1 .registrations g <;> simp [Prog.run]
  case invocation i g d a k bin =>
    refine ⟨fun t k ht hk => ?_, fun _ => ?_⟩
    · rw [next_invocation _ _ _ _ _ _ ht, next_invocation _ _ _ _ _ _ ht]; exact hs t k ht hk
    · simp only [Accepts, recv, Prog.run, hreg]
      cases st1 .registrations g <;> simp [Prog.run]

theorem after_sameD {st1 : Session.State} {X : Tab → Nat → Prop} (hd : ∀ m ∈ down, fromBroker m ∨ fromDealer m)
    (hX : ∀ t k, X t k → ∃ n, kind t = some n ∧ ∀ m ∈ down, fromDealer m → answers m ≠ some (n, k))
    (hs : ∀ t k, dealerTab t → ¬X t k → st t k = st1 t k) :
    (∀ t k, dealerTab t → ¬X t k → after st down t k = after st1 down t k) ∧
      ∀ P : Msg → Prop, (∀ m, P m → fromDealer m) → AllAcc P st down → AllAcc P st1 down := by
  induction down generalizing st st1 with
  | nil => exact ⟨hs, fun _ _ h => h⟩
  | cons m q ih =>
    obtain ⟨h1, h2⟩ := next_sameD (hd m (.head _)) (fun t k hx => by
      obtain ⟨n, hk, hn⟩ := hX t k hx
      exact ⟨n, hk, hn m (.head _)⟩) hs
    obtain ⟨h3, h4⟩ := ih (fun m' hm' => hd m' (.tail _ hm')) (fun t k hx => by
      obtain ⟨n, hk, hn⟩ := hX t k hx
      exact ⟨n, hk, fun m' hm' => hn m' (.tail _ hm')⟩) h1
    exact ⟨h3, fun P hP h => ⟨fun hm => (h2 (hP m hm)).1 (h.1 hm), h4 P hP h.2⟩⟩

theorem AllAcc.mono {P Q : Msg → Prop} (hPQ : ∀ m, Q m → P m) : ∀ {q : List Msg} {st : Session.State}, AllAcc P st q → AllAcc Q st q
  | [], _, _ => trivial
  | m :: q, _, h => ⟨fun hm => h.1 (hPQ m hm), AllAcc.mono hPQ h.2⟩

/-! ### Calls and answers -/

/-- What is under way: request IDs were not used twice, answers are answers to what was sent. -/
structure QI (up down sent : List Msg) : Prop where
  nod : (reqs up).Nodup
  used : ∀ k ∈ reqs up, k ∈ reqs sent
  ans : ∀ m ∈ down, fromDealer m → ∀ k, answers m = some k → k ∈ reqs sent
  fr : ∀ m ∈ down, fromBroker m ∨ fromDealer m
  /-- UNREGISTERs under way were sent. -/
  snt : ∀ r g, .unregister r g ∈ up → .unregister r g ∈ sent

theorem QI.take {m : Msg} (h : QI (m :: up) down sent) : QI up down sent := by
  refine ⟨?_, ?_, h.ans, h.fr, fun r g hm => h.snt r g (.tail _ hm)⟩
  · exact h.nod.sublist (List.Sublist.filterMap _ (List.sublist_cons_self ..))
  · exact fun k hk => h.used k (List.Sublist.subset (List.Sublist.filterMap _ (List.sublist_cons_self ..)) hk)

theorem QI.deliver {m : Msg} (h : QI up (m :: down) sent) : QI up down sent :=
  ⟨h.nod, h.used, fun m' hm' => h.ans m' (.tail _ hm'), fun m' hm' => h.fr m' (.tail _ hm'), h.snt⟩

theorem QI.post {q : List Msg} (h : QI up down sent) (hf : ∀ m ∈ q, fromBroker m ∨ fromDealer m)
    (ha : ∀ m ∈ q, fromDealer m → ∀ k, answers m = some k → k ∈ reqs sent) : QI up (down ++ q) sent := by
  refine ⟨h.nod, h.used, fun m hm => ?_, fun m hm => ?_, h.snt⟩
  · rcases List.mem_append.1 hm with hm | hm
    · exact h.ans m hm
    · exact ha m hm
  · rcases List.mem_append.1 hm with hm | hm
    · exact h.fr m hm
    · exact hf m hm

theorem QI.send {m : Msg} (h : QI up down sent) (hf : (reqs (m :: sent)).Nodup) : QI (up ++ [m]) down (m :: sent) := by
  have hused : ∀ k ∈ reqs sent, k ∈ reqs (m :: sent) := fun k hk => by rw [reqs_cons]; exact List.mem_append.2 (.inr hk)
  have hnew : ∀ k, request m = some k → k ∉ reqs sent := by
    intro k hk
    rw [reqs_cons, hk] at hf
    exact (List.nodup_cons.1 hf).1
  refine ⟨?_, ?_, fun m' hm' hd k hk => hused k (h.ans m' hm' hd k hk), h.fr, ?_⟩
  · rw [reqs_append]
    refine List.nodup_append.2 ⟨h.nod, by cases request m <;> simp, ?_⟩
    intro a ha b hb
    have := h.used a ha
    rintro rfl
    exact hnew a (by simpa using hb) this
  · intro k hk
    rw [reqs_append] at hk
    rcases List.mem_append.1 hk with hk | hk
    · exact hused k (h.used k hk)
    · rw [reqs_cons]; exact List.mem_append.2 (.inl hk)
  · intro r g hm
    rcases List.mem_append.1 hm with hm | hm
    · exact .tail _ (h.snt r g hm)
    · simp only [List.mem_singleton] at hm
      rw [hm]; exact .head _

theorem QI.head_only {m m' : Msg} {k : Nat × Nat} (h : QI (m :: up) down sent) (hk : request m = some k) (hm' : m' ∈ up) : request m' ≠ some k := by
  have := h.nod
  rw [reqs_cons, hk] at this
  exact fun e => (List.nodup_cons.1 this).1 (mem_reqs hm' e)

/-- The tables `T` of client `s` fit what the dealer knows about its requests. -/
structure DI (s : Nat) (b : Dealer.State) (T : Session.State) (up sent : List Msg) : Prop where
  call : ∀ r o p a k bin, .call r o p a k bin ∈ up → (T .call r).isSome = true
  pend : ∀ i p, b.pending.get i = some p → p.callerID = s →
    (T .call p.requestID).isSome = true ∧ (48, p.requestID) ∈ reqs sent ∧ (48, p.requestID) ∉ reqs up
  uniq : ∀ i j p q, b.pending.get i = some p → b.pending.get j = some q → p.callerID = s → q.callerID = s → p.requestID = q.requestID → i = j
  inv : ∀ r i, b.invByCall (s, r) = some i → (48, r) ∈ reqs sent ∧ (48, r) ∉ reqs up
  reg : ∀ r o p, .register r o p ∈ up → (T .register r).isSome = true
  unr : ∀ r g, .unregister r g ∈ up → T .unregister r = some g
  unrs : ∀ r g, T .unregister r = some g → .unregister r g ∈ sent

theorem DI.init : DI s Dealer.init Session.init [] [] := by
  refine ⟨?_, ?_, ?_, ?_, ?_, ?_, ?_⟩ <;> simp [Dealer.init, AMap.get, FMap.empty, Session.init]

theorem DI.congr {T' : Session.State} (h : DI s b T up sent) (h1 : b'.pending = b.pending) (h2 : b'.invByCall = b.invByCall)
    (h3 : ∀ r, T' .call r = T .call r) (h4 : ∀ r, T' .register r = T .register r) (h5 : ∀ r, T' .unregister r = T .unregister r) :
    DI s b' T' up sent := by
  refine ⟨?_, ?_, ?_, ?_, ?_, ?_, ?_⟩
  · intro r o p a k bin hm; rw [h3]; exact h.call r o p a k bin hm
  · intro i p hp hc; rw [h3]; rw [h1] at hp; exact h.pend i p hp hc
  · intro i j p q hp hq; rw [h1] at hp hq; exact h.uniq i j p q hp hq
  · intro r i hi; rw [h2] at hi; exact h.inv r i hi
  · intro r o p hm; rw [h4]; exact h.reg r o p hm
  · intro r g hm; rw [h5]; exact h.unr r g hm
  · intro r g hm; rw [h5] at hm; exact h.unrs r g hm

theorem DI.take {m : Msg} (h : DI s b T (m :: up) sent) : DI s b T up sent := by
  have hsub : ∀ k ∈ reqs up, k ∈ reqs (m :: up) := List.Sublist.subset (List.Sublist.filterMap _ (List.sublist_cons_self ..))
  exact ⟨fun r o p a k bin hm => h.call r o p a k bin (.tail _ hm), fun i p hp hc =>
    let ⟨a1, a2, a3⟩ := h.pend i p hp hc; ⟨a1, a2, fun hk => a3 (hsub _ hk)⟩, h.uniq,
    fun r i hi => let ⟨a1, a2⟩ := h.inv r i hi; ⟨a1, fun hk => a2 (hsub _ hk)⟩,
    fun r o p hm => h.reg r o p (.tail _ hm), fun r g hm => h.unr r g (.tail _ hm), h.unrs⟩

/-- An invocation is settled: its request waits no more. -/
theorem DI.settle {T' : Session.State} {i : Nat} {p : Dealer.Pending} (h : DI s b T up sent) (hp : b.pending.get i = some p) (hs : p.callerID = s)
    (h1 : b'.pending = b.pending.del i) (h2 : b'.invByCall = b.invByCall)
    (h3 : ∀ r, T' .call r = if r = p.requestID then none else T .call r) (h4 : ∀ r, T' .register r = T .register r)
    (h5 : ∀ r, T' .unregister r = T .unregister r) : DI s b' T' up sent := by
  obtain ⟨-, -, hn⟩ := h.pend i p hp hs
  refine ⟨?_, ?_, ?_, ?_, ?_, ?_, ?_⟩
  · intro r o p' a k bin hm
    rw [h3, if_neg]
    · exact h.call r o p' a k bin hm
    · rintro rfl; exact hn (mem_reqs hm rfl)
  · intro j q hq hc
    rw [h1, AMap.get_del] at hq
    split at hq
    · cases hq
    · rename_i hne
      rw [h3, if_neg]
      · exact h.pend j q hq hc
      · exact fun e => hne (h.uniq j i q p hq hp hc hs e)
  · intro j j' q q' hq hq'
    rw [h1, AMap.get_del] at hq hq'
    split at hq
    · cases hq
    · split at hq'
      · cases hq'
      · exact h.uniq j j' q q' hq hq'
  · intro r j hj; rw [h2] at hj; exact h.inv r j hj
  · intro r o p hm; rw [h4]; exact h.reg r o p hm
  · intro r g hm; rw [h5]; exact h.unr r g hm
  · intro r g hm; rw [h5] at hm; exact h.unrs r g hm

/-- An invocation is dropped, or is that of another caller. -/
theorem DI.drop {i : Nat} (h : DI s b T up sent) (h1 : b'.pending = b.pending.del i) (h2 : b'.invByCall = b.invByCall) :
    DI s b' T up sent := by
  refine ⟨h.call, ?_, ?_, ?_, h.reg, h.unr, h.unrs⟩
  · intro j q hq
    rw [h1, AMap.get_del] at hq
    split at hq
    · cases hq
    · exact h.pend j q hq
  · intro j j' q q' hq hq'
    rw [h1, AMap.get_del] at hq hq'
    split at hq
    · cases hq
    · split at hq'
      · cases hq'
      · exact h.uniq j j' q q' hq hq'
  · intro r j hj; rw [h2] at hj; exact h.inv r j hj

/-- A CALL of another client becomes an invocation. -/
theorem DI.otherCall {i c r : Nat} {p : Dealer.Pending} (h : DI s b T up sent) (hc : c ≠ s) (hp : p.callerID = c)
    (h1 : b'.pending = b.pending.set i p) (h2 : b'.invByCall = b.invByCall.set (c, r) i) : DI s b' T up sent := by
  have hget : ∀ j q, b'.pending.get j = some q → q.callerID = s → b.pending.get j = some q := by
    intro j q hq hs
    rw [h1, AMap.get_set] at hq
    split at hq
    · cases hq; exact absurd (hp.symm.trans hs) hc
    · exact hq
  refine ⟨h.call, fun j q hq hs => h.pend j q (hget j q hq hs) hs,
    fun j j' q q' hq hq' hs hs' => h.uniq j j' q q' (hget j q hq hs) (hget j' q' hq' hs') hs hs', ?_, h.reg, h.unr, h.unrs⟩
  intro r' j hj
  rw [h2, FMap.set_apply, if_neg (by intro e; cases e; exact hc rfl)] at hj
  exact h.inv r' j hj

/-- A CALL becomes an invocation. -/
theorem DI.ownCall {i r : Nat} {p : Dealer.Pending} {o : GoMap} {u : Str} {a : GoSlice} {k : GoMap} {bin : Bin}
    (h : DI s b T (.call r o u a k bin :: up) sent) (hq : QI (.call r o u a k bin :: up) down sent) (hp : p.callerID = s)
    (hr : p.requestID = r) (h1 : b'.pending = b.pending.set i p) (h2 : b'.invByCall = b.invByCall.set (s, r) i) : DI s b' T up sent := by
  have hmem : (48, r) ∈ reqs (.call r o u a k bin :: up) := mem_reqs (.head _) rfl
  have hnot : (48, r) ∉ reqs up := by
    intro hk
    obtain ⟨m', hm', he⟩ := List.mem_filterMap.1 hk
    exact hq.head_only rfl hm' he
  have hd := h.take
  refine ⟨hd.call, ?_, ?_, ?_, hd.reg, hd.unr, hd.unrs⟩
  · intro j q hj hs
    rw [h1, AMap.get_set] at hj
    split at hj
    · cases hj
      rw [hr]
      exact ⟨h.call r o u a k bin (.head _), hq.used _ hmem, hnot⟩
    · exact hd.pend j q hj hs
  · intro j j' q q' hj hj' hs hs' he
    rw [h1, AMap.get_set] at hj hj'
    split at hj
    · cases hj
      split at hj'
      · rename_i e1 e2; rw [e1, e2]
      · exact absurd hmem (by have := (h.pend j' q' hj' hs').2.2; rwa [← he, hr] at this)
    · split at hj'
      · cases hj'
        exact absurd hmem (by have := (h.pend j q hj hs).2.2; rwa [he, hr] at this)
      · exact hd.uniq j j' q q' hj hj' hs hs' he
  · intro r' j hj
    rw [h2, FMap.set_apply] at hj
    split at hj
    · rename_i e; cases e; exact ⟨hq.used _ hmem, hnot⟩
    · exact hd.inv r' j hj

/-- A CALL is refused. -/
theorem DI.refused {T' : Session.State} {r : Nat} {o : GoMap} {u : Str} {a : GoSlice} {k : GoMap} {bin : Bin}
    (h : DI s b T (.call r o u a k bin :: up) sent) (hq : QI (.call r o u a k bin :: up) down sent)
    (h3 : ∀ r', T' .call r' = if r' = r then none else T .call r') (h4 : ∀ r, T' .register r = T .register r)
    (h5 : ∀ r, T' .unregister r = T .unregister r) : DI s b T' up sent := by
  have hd := h.take
  refine ⟨?_, ?_, hd.uniq, hd.inv, ?_, ?_, ?_⟩
  · intro r' o p' a k bin hm
    rw [h3, if_neg]
    · exact hd.call r' o p' a k bin hm
    · rintro rfl; exact hq.head_only rfl hm rfl
  · intro j q hj hs
    rw [h3, if_neg]
    · exact hd.pend j q hj hs
    · intro e
      have := (h.pend j q hj hs).2.2
      rw [e] at this
      exact this (mem_reqs (.head _) rfl)
  · intro r o p hm; rw [h4]; exact hd.reg r o p hm
  · intro r g hm; rw [h5]; exact hd.unr r g hm
  · intro r g hm; rw [h5] at hm; exact hd.unrs r g hm

/-- A REGISTER is answered. -/
theorem DI.regAnswered {T' : Session.State} {r : Nat} {o : GoMap} {u : Str}
    (h : DI s b T (.register r o u :: up) sent) (hq : QI (.register r o u :: up) down sent)
    (h1 : b'.pending = b.pending) (h2 : b'.invByCall = b.invByCall)
    (h3 : ∀ r', T' .call r' = T .call r') (h4 : ∀ r', T' .register r' = if r' = r then none else T .register r')
    (h5 : ∀ r, T' .unregister r = T .unregister r) : DI s b' T' up sent := by
  have hd := h.take
  refine ⟨?_, ?_, ?_, ?_, ?_, ?_, ?_⟩
  · intro r o p a k bin hm; rw [h3]; exact hd.call r o p a k bin hm
  · intro i p hp hc; rw [h3]; rw [h1] at hp; exact hd.pend i p hp hc
  · intro i j p q hp hq; rw [h1] at hp hq; exact hd.uniq i j p q hp hq
  · intro r i hi; rw [h2] at hi; exact hd.inv r i hi
  · intro r' o p hm
    rw [h4, if_neg]
    · exact hd.reg r' o p hm
    · rintro rfl; exact hq.head_only rfl hm rfl
  · intro r g hm; rw [h5]; exact hd.unr r g hm
  · intro r g hm; rw [h5] at hm; exact hd.unrs r g hm

theorem broker_answers {m : Msg} {n k : Nat} (hm : fromBroker m) (hk : answers m = some (n, k)) : n = 16 ∨ n = 32 ∨ n = 34 := by
  cases m <;> simp only [fromBroker] at hm <;> simp only [answers, Option.some.injEq, Prod.mk.injEq, reduceCtorEq] at hk
  all_goals omega

theorem dealer_kind {t : Tab} {n : Nat} (ht : dealerTab t) (hk : kind t = some n) : n = 48 ∨ n = 64 ∨ n = 66 := by
  cases t <;> simp only [dealerTab] at ht <;> simp only [kind, Option.some.injEq, reduceCtorEq] at hk
  all_goals omega

/-- Sending, seen from the tables for calling and registering. -/
theorem send_tabs {data v : Str} {m : Msg} {c : Session.State} (hq : QI up down sent) (hs : (send (.ok data) m).run st = (c, .ok v))
    (hf : (reqs (m :: sent)).Nodup) :
    (∀ P : Msg → Prop, (∀ m, P m → fromDealer m) → AllAcc P st down → AllAcc P c down) ∧
    (∀ t k, dealerTab t → (∀ n, kind t = some n → request m ≠ some (n, k)) → after c down t k = after st down t k) ∧
    (∀ t n k, dealerTab t → kind t = some n → request m = some (n, k) →
      (after c down t k).isSome = true ∧ ∀ r g, m = .unregister r g → after c down t k = some g) := by
  have hnew : ∀ k, request m = some k → k ∉ reqs sent := by
    intro k hk
    rw [reqs_cons, hk] at hf
    exact (List.nodup_cons.1 hf).1
  rcases send_effect hs with ⟨t, r, v, n, e1, e2, e3, e4, e5, e6⟩ | ⟨e1, e2⟩
  · have hX : ∀ t' k', (t' = t ∧ k' = r) → ∃ n, kind t' = some n ∧ ∀ m ∈ down, fromDealer m → answers m ≠ some (n, k') := by
      rintro _ _ ⟨rfl, rfl⟩
      exact ⟨n, e2, fun m' hm' hb hk => hnew _ e1 (hq.ans m' hm' hb _ hk)⟩
    obtain ⟨k1, k2⟩ := after_sameD (st := st) (st1 := c) (X := fun t' k' => t' = t ∧ k' = r) hq.fr hX (fun t' k' _ hx => (e4 t' k' hx).symm)
    refine ⟨k2, ?_, ?_⟩
    · intro t' k ht hn
      refine (k1 t' k ht ?_).symm
      rintro ⟨rfl, rfl⟩
      exact hn n e2 e1
    · intro t' n' k ht hk hr
      rw [e1] at hr
      cases hr
      have htt := kind_inj hk e2
      subst htt
      have : after c down t' r = some v := by
        rw [← e3]
        refine after_keep e2 fun m' hm' hk' => ?_
        rcases hq.fr m' hm' with hb | hd
        · have h1 := broker_answers hb hk'
          have h2 := dealer_kind ht e2
          omega
        · exact hnew _ e1 (hq.ans m' hm' hd _ hk')
      rw [this]
      exact ⟨rfl, fun r g hm => by rw [e6 r g hm]⟩
  · obtain ⟨k1, k2⟩ := after_sameD (st := st) (st1 := c) (X := fun _ _ => False) hq.fr (by simp)
      (fun t' k' ht _ => (e2 t' k' (by rintro rfl; exact ht)).symm)
    refine ⟨k2, fun t k ht _ => (k1 t k ht (by simp)).symm, ?_⟩
    intro t n k ht hk hr
    rcases e1 with e1 | ⟨_, _, _, _, _, rfl, -⟩
    · rw [e1] at hr; cases hr
    · cases hr
      have := dealer_kind ht hk
      omega

theorem mem_snoc {m m' : Msg} (h : m' ∈ up ++ [m]) : m' ∈ up ∨ m' = m := by simpa using h

theorem DI.send {data v : Str} {m : Msg} {c : Session.State} (h : DI s b (after st down) up sent) (hq : QI up down sent)
    (hs : (send (.ok data) m).run st = (c, .ok v)) (hf : (reqs (m :: sent)).Nodup) :
    DI s b (after c down) (up ++ [m]) (m :: sent) := by
  obtain ⟨-, h2, h3⟩ := send_tabs hq hs hf
  have hnew : ∀ k, request m = some k → k ∉ reqs sent := by
    intro k hk
    rw [reqs_cons, hk] at hf
    exact (List.nodup_cons.1 hf).1
  have hmono : ∀ t n k, dealerTab t → kind t = some n → (after st down t k).isSome = true → (after c down t k).isSome = true := by
    intro t n k ht hk hh
    by_cases hr : request m = some (n, k)
    · exact (h3 t n k ht hk hr).1
    · rw [h2 t k ht (fun n' hn' => by rw [hk] at hn'; cases hn'; exact hr)]
      exact hh
  have hup : ∀ k, k ∈ reqs sent → k ∉ reqs up → k ∉ reqs (up ++ [m]) := by
    intro k hk hn hk'
    rw [reqs_append] at hk'
    rcases List.mem_append.1 hk' with hk' | hk'
    · exact hn hk'
    · exact hnew k (by simpa using hk') hk
  have hused : ∀ k ∈ reqs sent, k ∈ reqs (m :: sent) := fun k hk => by rw [reqs_cons]; exact List.mem_append.2 (.inr hk)
  refine ⟨?_, ?_, h.uniq, ?_, ?_, ?_, ?_⟩
  · intro r o p a k bin hm
    rcases mem_snoc hm with hm | hm
    · exact hmono .call 48 r trivial rfl (h.call r o p a k bin hm)
    · exact (h3 .call 48 r trivial rfl (by rw [← hm]; rfl)).1
  · intro i p hp hc
    obtain ⟨a1, a2, a3⟩ := h.pend i p hp hc
    exact ⟨hmono .call 48 _ trivial rfl a1, hused _ a2, hup _ a2 a3⟩
  · intro r i hi
    obtain ⟨a2, a3⟩ := h.inv r i hi
    exact ⟨hused _ a2, hup _ a2 a3⟩
  · intro r o p hm
    rcases mem_snoc hm with hm | hm
    · exact hmono .register 64 r trivial rfl (h.reg r o p hm)
    · exact (h3 .register 64 r trivial rfl (by rw [← hm]; rfl)).1
  · intro r g hm
    rcases mem_snoc hm with hm | hm
    · rw [h2 .unregister r trivial]
      · exact h.unr r g hm
      · intro n hn hr
        cases hn
        exact hnew _ hr (hq.used _ (mem_reqs hm rfl))
    · exact (h3 .unregister 66 r trivial rfl (by rw [← hm]; rfl)).2 r g hm.symm
  · intro r g hm
    by_cases hr : request m = some (66, r)
    · have : ∃ g', m = .unregister r g' := by
        cases m <;> simp only [request, Option.some.injEq, Prod.mk.injEq, reduceCtorEq, Nat.reduceEqDiff, false_and] at hr
        rw [hr.2]; exact ⟨_, rfl⟩
      obtain ⟨g', rfl⟩ := this
      rw [(h3 .unregister 66 r trivial rfl rfl).2 r g' rfl] at hm
      cases hm
      exact .head _
    · rw [h2 .unregister r trivial (fun n hn => by cases hn; exact hr)] at hm
      exact .tail _ (h.unrs r g hm)

/-! ### What the dealer does with a message -/

/-- The dealer in state `b` handles a message of `s`: new state and what is sent. -/
inductive DStep (b : Dealer.State) (s : Nat) : Msg → Dealer.State → List (Nat × Msg) → Prop where
  | quiet (m b') : b'.pending = b.pending → b'.invByCall = b.invByCall → DStep b s m b' []
  | refused (r o u a k bin d e a' k') : DStep b s (.call r o u a k bin) b [(s, .error 48 r d e a' k')]
  | called (r o u a k bin i p b' out) : p.callerID = s → p.requestID = r → b'.pending = b.pending.set i p →
      b'.invByCall = b.invByCall.set (s, r) i →
      (out = [] ∨ ∃ j g d a' k' bin' c, out = [(c, .invocation j g d a' k' bin')]) → DStep b s (.call r o u a k bin) b' out
  | continued (r o u a k bin i b' out) : b.invByCall (s, r) = some i → b'.pending = b.pending → b'.invByCall = b.invByCall →
      (out = [] ∨ ∃ j g d a' k' bin' c, out = [(c, .invocation j g d a' k' bin')]) → DStep b s (.call r o u a k bin) b' out
  | dropped (m i b') : b'.pending = b.pending.del i → b'.invByCall = b.invByCall → DStep b s m b' []
  | progress (m i p d a k bin) : b.pending.get i = some p → d.flag (str "progress") = true →
      DStep b s m b [(p.callerID, .result p.requestID d a k bin)]
  | result (m i p b' d a k bin) : b.pending.get i = some p → d.flag (str "progress") = false → b'.pending = b.pending.del i →
      b'.invByCall = b.invByCall → DStep b s m b' [(p.callerID, .result p.requestID d a k bin)]
  | error (m i p b' d u a k) : b.pending.get i = some p → b'.pending = b.pending.del i → b'.invByCall = b.invByCall →
      DStep b s m b' [(p.callerID, .error 48 p.requestID d u a k)]
  | registered (r o u g b') : b'.pending = b.pending → b'.invByCall = b.invByCall → DStep b s (.register r o u) b' [(s, .registered r g)]
  | taken (r o u d e a k) : DStep b s (.register r o u) b [(s, .error 64 r d e a k)]
  | unregistered (r g b') : b'.pending = b.pending → b'.invByCall = b.invByCall → (∃ m a, b.bySession s = some m ∧ m.get g = some a) →
      DStep b s (.unregister r g) b' [(s, .unregistered r)]

theorem dstep (b : Dealer.State) (s : Nat) (m : Msg) (wo : List Str) (rnd : Nat) (hm : forDealer m)
    (hnp : (Dealer.step w b (.receive s m wo rnd)).2 ≠ .panic) :
    DStep b s m (Dealer.step w b (.receive s m wo rnd)).1 (dealerOut (Dealer.step w b (.receive s m wo rnd)).2) := by
  cases m <;> simp only [forDealer] at hm <;> simp only [Dealer.step, Dealer.receive] at hnp ⊢
  case call r o u a k bin =>
    rcases Dealer.call_cases w b s r o u a k bin wo rnd with ⟨-, e⟩ | ⟨e, -⟩ | ⟨_, c, _, i, -, -, -, hst, hout⟩
    · rw [e]; exact .refused ..
    · rw [e] at hnp; exact absurd rfl hnp
    · have hout : dealerOut ((Dealer.call w b s r o u a k bin wo rnd).2.map fun x => .msg x.1 x.2) = [] ∨
          ∃ j g d a' k' bin' c, dealerOut ((Dealer.call w b s r o u a k bin wo rnd).2.map fun x => .msg x.1 x.2) = [(c, .invocation j g d a' k' bin')] := by
        rcases hout with ⟨-, e⟩ | ⟨c, -, -, e⟩ <;> rw [e]
        · exact .inl rfl
        · refine .inr ?_
          simp only [Res.map_ok, dealerOut, Dealer.invocationFor]
          split <;> exact ⟨_, _, _, _, _, _, _, rfl⟩
      rcases hst with ⟨-, -, e⟩ | ⟨hi, -, e⟩
      · refine .called r o u a k bin i ⟨r, s, c, o.flag Dealer.optProgress, o.flag Dealer.optReceiveProgress⟩ _ _ rfl rfl ?_ ?_ hout <;> rw [e]
      · refine .continued r o u a k bin i _ _ hi ?_ ?_ hout <;> rw [e]
  case yield i o a k bin =>
    rcases Dealer.yield_cases b i o a k bin with ⟨-, e⟩ | ⟨p, hp, e1, ⟨-, e2⟩ | ⟨c, -, e2⟩⟩
    · rw [e]; exact .quiet _ _ rfl rfl
    · rw [e1, e2]
      simp only [Res.map_err, dealerOut]
      split
      · exact .quiet _ _ rfl rfl
      · exact .dropped _ i _ rfl rfl
    · rw [e1, e2]
      obtain ⟨d, a', k', bin', e3, e4, -⟩ := Dealer.resultFor_shape p.requestID (p.receiveProgress && o.flag Dealer.optProgress) a k bin c
      simp only [Res.map_ok, dealerOut, e3]
      cases hmore : (p.receiveProgress && o.flag Dealer.optProgress)
      · rw [hmore] at e4
        simp only [Bool.false_eq_true, if_false]
        exact .result _ i p _ d a' k' bin' hp e4 rfl rfl
      · rw [hmore] at e4
        simp only [if_true]
        exact .progress _ i p d a' k' bin' hp e4
  case register r o u =>
    rcases Dealer.register_cases b s r o u with ⟨-, e⟩ | ⟨_, -, ⟨_, -, -, e⟩ | ⟨_, -, -, e⟩ | ⟨-, e⟩⟩ <;> rw [e]
    · exact .quiet _ _ rfl rfl
    · exact .taken ..
    · exact .registered _ _ _ _ _ rfl rfl
    · exact .registered _ _ _ _ _ rfl rfl
  case unregister r g =>
    rcases Dealer.unregister_cases b s r g with e | e | ⟨m, a, hm, hg, e, f, -⟩
    · rw [e]; exact .quiet _ _ rfl rfl
    · rw [e] at hnp; exact absurd rfl hnp
    · rw [e]
      exact .unregistered r g _ f.pending f.invByCall ⟨m, a, hm, hg⟩
  case error t i d u a k =>
    rcases Dealer.error_cases b t i d u a k with ⟨-, e⟩ | ⟨-, p, hp, e⟩ <;> rw [e]
    · exact .quiet _ _ rfl rfl
    · simp only [Res.map_ok, dealerOut, newError]
      exact .error _ i p _ _ _ _ _ hp rfl rfl

/-- RESULT, REGISTERED and ERROR. -/
def isAnswer : Msg → Prop
  | .result .. | .registered .. => True
  | .error t _ _ _ _ _ => t = 48 ∨ t = 64
  | _ => False

theorem isAnswer_from {m : Msg} (h : isAnswer m) : fromDealer m := by
  cases m <;> simp only [isAnswer] at h <;> first | exact trivial | exact h

theorem allAcc_snoc {P : Msg → Prop} {m : Msg} (h : AllAcc P st down) (hm : P m → Accepts (after st down) m) : AllAcc P st (down ++ [m]) :=
  (allAcc_append ..).2 ⟨h, hm, trivial⟩

theorem after_snoc (m : Msg) : after st (down ++ [m]) = next (after st down) m := after_append ..

/-- Messages of the broker are sent. -/
theorem posts_broker {P : Msg → Prop} {q : List Msg} (hP : ∀ m, P m → fromDealer m) (hq : ∀ m ∈ q, fromBroker m) (h : AllAcc P st down) :
    AllAcc P st (down ++ q) ∧ ∀ t k, dealerTab t → after st (down ++ q) t k = after st down t k := by
  induction q generalizing down with
  | nil => simpa using h
  | cons m q ih =>
    rw [List.append_cons]
    obtain ⟨h1, h2⟩ := ih (fun m' hm' => hq m' (.tail _ hm')) (allAcc_snoc (m := m) h fun hm => by
      have h1 := hP m hm
      have h2 := hq m (.head _)
      cases m <;> simp only [fromBroker] at h2 <;> exact h1.elim)
    refine ⟨h1, fun t k ht => ?_⟩
    rw [h2 t k ht, after_snoc, next_broker (hq m (.head _)) ht]

theorem brokerOut_from {b : Broker.State} {s : Nat} {m : Msg} {wo : List Str} {so : List Nat} {op : Broker.Op} (h : callB s m wo so = some op) :
    ∀ p ∈ brokerOut (Broker.step w b op).2, fromBroker p.2 := by
  intro p hp
  cases m <;> simp only [callB, Option.some.injEq, reduceCtorEq] at h <;> subst h
  case subscribe q o t =>
    rcases subscribed_of (w := w) (b := b) (s := s) (q := q) (o := o) (t := t) with e | ⟨i, e⟩ <;> rw [e] at hp
    · cases hp
    · simp only [brokerOut, List.mem_singleton] at hp; subst hp; trivial
  case unsubscribe q g =>
    simp only [Broker.step, Broker.receive, Broker.unsubscribe] at hp
    split at hp
    · cases hp
    · split at hp
      · cases hp
      · simp only [Res.map_ok, brokerOut, List.mem_singleton] at hp; subst hp; trivial
  case publish q o t a k =>
    simp only [Broker.step, Broker.publish] at hp
    have hack : ∀ (l : Option (Msg × Nat)) (p' : Nat × Msg), (∀ x, l = some x → fromBroker x.1) →
        p' ∈ (match l with | some (m, s) => [(s, m)] | none => [] : List (Nat × Msg)) → fromBroker p'.2 := by
      intro l p' hl hp'
      cases l with
      | none => cases hp'
      | some x => simp only [List.mem_singleton] at hp'; subst hp'; exact hl x rfl
    have hack' : ∀ x, (if o.flag (str "acknowledge") then some (newPublished q (nextID b.idGen).2, s) else none) = some x → fromBroker x.1 := by
      intro x hx
      split at hx
      · cases hx; trivial
      · cases hx
    split at hp
    · cases hp
    · split at hp
      · simp only [Res.map_ok, brokerOut, List.nil_append] at hp
        exact hack _ p hack' hp
      · split at hp
        · simp only [Res.map_ok, brokerOut, List.nil_append] at hp
          exact hack _ p hack' hp
        · split at hp
          · simp only [Res.map_ok, brokerOut, List.mem_append, List.mem_map] at hp
            rcases hp with ⟨_, -, rfl⟩ | hp
            · trivial
            · exact hack _ p hack' hp
          · cases hp
          · cases hp

theorem accepts_result {r : Nat} {d : GoMap} {a : GoSlice} {k : GoMap} {bin : Bin} (h : (T .call r).isSome = true) :
    Accepts T (.result r d a k bin) := by
  obtain ⟨v, hv⟩ := Option.isSome_iff_exists.1 h
  simp only [Accepts, recv, Prog.run, hv]
  split <;> rfl

theorem accepts_error {n r : Nat} {tab : Tab} {d : GoMap} {u : Str} {a : GoSlice} {k : GoMap} (hn : errorTab n = some tab)
    (h : (T tab r).isSome = true) : Accepts T (.error n r d u a k) := by
  obtain ⟨v, hv⟩ := Option.isSome_iff_exists.1 h
  simp only [Accepts, recv, hn, Prog.run, hv]

theorem accepts_registered {r g : Nat} (h : (T .register r).isSome = true) : Accepts T (.registered r g) := by
  obtain ⟨v, hv⟩ := Option.isSome_iff_exists.1 h
  simp only [Accepts, recv, Prog.run, hv]

/-- All about the requests of client `s` to the dealer. -/
structure AI (s : Nat) (b : Dealer.State) (st : Session.State) (up down sent : List Msg) : Prop where
  q : QI up down sent
  d : DI s b (after st down) up sent
  acc : AllAcc isAnswer st down

theorem AI.quiet (h : AI s b st up down sent) (h1 : b'.pending = b.pending) (h2 : b'.invByCall = b.invByCall) : AI s b' st up down sent :=
  ⟨h.q, h.d.congr h1 h2 (fun _ => rfl) (fun _ => rfl) (fun _ => rfl), h.acc⟩

theorem AI.take {m : Msg} (h : AI s b st (m :: up) down sent) : AI s b st up down sent := ⟨h.q.take, h.d.take, h.acc⟩

theorem QI.snoc {m : Msg} (h : QI up down sent) (hf : fromBroker m ∨ fromDealer m) (ha : ∀ k, answers m = some k → k ∈ reqs sent) :
    QI up (down ++ [m]) sent :=
  h.post (fun m' hm' => by simp only [List.mem_singleton] at hm'; subst hm'; exact hf)
    (fun m' hm' _ => by simp only [List.mem_singleton] at hm'; subst hm'; exact ha)

/-- An INVOCATION is sent. -/
theorem AI.invocation {i g : Nat} {d : GoMap} {a : GoSlice} {k : GoMap} {bin : Bin} (h : AI s b st up down sent) :
    AI s b st up (down ++ [.invocation i g d a k bin]) sent := by
  refine ⟨h.q.snoc (.inr trivial) (by simp [answers]), ?_, allAcc_snoc h.acc fun hm => hm.elim⟩
  rw [after_snoc]
  exact h.d.congr rfl rfl (fun r => next_invocation (t := .call) _ _ _ _ _ _ trivial r)
    (fun r => next_invocation (t := .register) _ _ _ _ _ _ trivial r) (fun r => next_invocation (t := .unregister) _ _ _ _ _ _ trivial r)

theorem AI.dealer {s' : Nat} {m : Msg} {up0 : List Msg} {out : List (Nat × Msg)} (h : AI s b st up0 down sent)
    (hu : (s = s' ∧ up0 = m :: up) ∨ (s ≠ s' ∧ up0 = up)) (hd : DStep b s' m b' out) :
    AI s b' st up (down ++ messagesFor s out) sent := by
  have h0 : AI s b st up down sent := by
    rcases hu with ⟨-, e⟩ | ⟨-, e⟩ <;> rw [e] at h
    · exact h.take
    · exact h
  have hout : ∀ {out : List (Nat × Msg)} {b'}, (out = [] ∨ ∃ j g d a' k' bin' c, out = [(c, .invocation j g d a' k' bin')]) → AI s b' st up down sent →
      AI s b' st up (down ++ messagesFor s out) sent := by
    intro out b' ho h
    rcases ho with rfl | ⟨j, g, d, a', k', bin', c, rfl⟩
    · simpa [messagesFor_nil] using h
    · rw [messagesFor_one]
      by_cases hc : c = s
      · rw [if_pos hc]; exact h.invocation
      · rw [if_neg hc, List.append_nil]; exact h
  have hother : ∀ {m' : Msg} {c : Nat}, c ≠ s → messagesFor s [(c, m')] = [] := by
    intro m' c hc; rw [messagesFor_one, if_neg hc]
  have hself : ∀ {m' : Msg}, messagesFor s [(s, m')] = [m'] := by
    intro m'; rw [messagesFor_one, if_pos rfl]
  cases hd with
  | quiet _ _ h1 h2 =>
    rw [messagesFor_nil, List.append_nil]
    exact h0.quiet h1 h2
  | refused r o u a k bin d e a' k' =>
    rcases hu with ⟨rfl, rfl⟩ | ⟨hne, rfl⟩
    · rw [hself]
      have hc := h.d.call r o u a k bin (.head _)
      refine ⟨h0.q.snoc (.inr (.inl rfl)) (fun k hk => by cases hk; exact h.q.used _ (mem_reqs (.head _) rfl)), ?_,
        allAcc_snoc h.acc fun _ => accepts_error (tab := .call) rfl hc⟩
      rw [after_snoc]
      refine h.d.refused h.q ?_ ?_ ?_ <;> intro r' <;> rw [next_error (tab := .call) rfl] <;> simp
    · rw [hother hne.symm, List.append_nil]; exact h0
  | called r o u a k bin i p _ _ h1 h2 h3 h4 h5 =>
    refine hout h5 ?_
    rcases hu with ⟨rfl, rfl⟩ | ⟨hne, rfl⟩
    · exact ⟨h0.q, h.d.ownCall h.q h1 h2 h3 h4, h.acc⟩
    · exact ⟨h0.q, h0.d.otherCall hne.symm h1 h3 h4, h.acc⟩
  | continued r o u a k bin i _ _ h1 h2 h3 h4 => exact hout h4 (h0.quiet h2 h3)
  | dropped _ i _ h1 h2 =>
    rw [messagesFor_nil, List.append_nil]
    exact ⟨h0.q, h0.d.drop h1 h2, h0.acc⟩
  | progress _ i p d a k bin h1 h2 =>
    by_cases hc : p.callerID = s
    · rw [hc, hself]
      obtain ⟨p1, p2, p3⟩ := h0.d.pend i p h1 hc
      refine ⟨h0.q.snoc (.inr trivial) (fun k hk => by cases hk; exact p2), ?_, allAcc_snoc h0.acc fun _ => accepts_result p1⟩
      rw [after_snoc]
      refine h0.d.congr rfl rfl ?_ ?_ ?_ <;> intro r' <;> rw [next_result] <;> simp [h2]
    · rw [hother hc, List.append_nil]; exact h0
  | result _ i p _ d a k bin h1 h2 h3 h4 =>
    by_cases hc : p.callerID = s
    · rw [hc, hself]
      obtain ⟨p1, p2, p3⟩ := h0.d.pend i p h1 hc
      refine ⟨h0.q.snoc (.inr trivial) (fun k hk => by cases hk; exact p2), ?_, allAcc_snoc h0.acc fun _ => accepts_result p1⟩
      rw [after_snoc]
      refine h0.d.settle h1 hc h3 h4 ?_ ?_ ?_ <;> intro r' <;> rw [next_result] <;> simp [h2]
    · rw [hother hc, List.append_nil]
      exact ⟨h0.q, h0.d.drop h3 h4, h0.acc⟩
  | error _ i p _ d u a k h1 h3 h4 =>
    by_cases hc : p.callerID = s
    · rw [hc, hself]
      obtain ⟨p1, p2, p3⟩ := h0.d.pend i p h1 hc
      refine ⟨h0.q.snoc (.inr (.inl rfl)) (fun k hk => by cases hk; exact p2), ?_,
        allAcc_snoc h0.acc fun _ => accepts_error (tab := .call) rfl p1⟩
      rw [after_snoc]
      refine h0.d.settle h1 hc h3 h4 ?_ ?_ ?_ <;> intro r' <;> rw [next_error (tab := .call) rfl] <;> simp
    · rw [hother hc, List.append_nil]
      exact ⟨h0.q, h0.d.drop h3 h4, h0.acc⟩
  | registered r o u g _ h1 h2 =>
    rcases hu with ⟨rfl, rfl⟩ | ⟨hne, rfl⟩
    · rw [hself]
      have hc := h.d.reg r o u (.head _)
      refine ⟨h0.q.snoc (.inr trivial) (fun k hk => by cases hk; exact h.q.used _ (mem_reqs (.head _) rfl)), ?_,
        allAcc_snoc h.acc fun _ => accepts_registered hc⟩
      rw [after_snoc]
      refine h.d.regAnswered h.q h1 h2 ?_ ?_ ?_ <;> intro r' <;> rw [next_registered hc] <;> simp
    · rw [hother hne.symm, List.append_nil]; exact h0.quiet h1 h2
  | taken r o u d e a k =>
    rcases hu with ⟨rfl, rfl⟩ | ⟨hne, rfl⟩
    · rw [hself]
      have hc := h.d.reg r o u (.head _)
      refine ⟨h0.q.snoc (.inr (.inr rfl)) (fun k hk => by cases hk; exact h.q.used _ (mem_reqs (.head _) rfl)), ?_,
        allAcc_snoc h.acc fun _ => accepts_error (tab := .register) rfl hc⟩
      rw [after_snoc]
      refine h.d.regAnswered h.q rfl rfl ?_ ?_ ?_ <;> intro r' <;> rw [next_error (tab := .register) rfl] <;> simp
    · rw [hother hne.symm, List.append_nil]; exact h0
  | unregistered r g _ h1 h2 h3 =>
    rcases hu with ⟨rfl, rfl⟩ | ⟨hne, rfl⟩
    · rw [hself]
      have hc := h.d.unr r g (.head _)
      refine ⟨h0.q.snoc (.inr trivial) (fun k hk => by cases hk; exact h.q.used _ (mem_reqs (.head _) rfl)), ?_,
        allAcc_snoc h.acc fun hm => hm.elim⟩
      rw [after_snoc]
      refine h0.d.congr h1 h2 ?_ ?_ ?_ <;> intro r' <;> rw [next_unregistered hc] <;> simp
    · rw [hother hne.symm, List.append_nil]; exact h0.quiet h1 h2

theorem admin_frame {dop : Dealer.Op} (h : adminD dop) (hnp : (Dealer.step w b dop).2 ≠ .panic) :
    (Dealer.step w b dop).1.pending = b.pending ∧ (Dealer.step w b dop).1.invByCall = b.invByCall := by
  cases dop <;> simp only [adminD] at h <;> simp only [Dealer.step] at hnp ⊢
  case add d => simp only [Dealer.addSession]; split <;> exact ⟨rfl, rfl⟩
  case disclose on => exact ⟨rfl, rfl⟩
  case remove s order =>
    rcases Dealer.remove_cases b s order with ⟨-, e⟩ | ⟨-, e⟩ | ⟨-, -, f, -⟩
    · rw [e]; exact ⟨rfl, rfl⟩
    · rw [e] at hnp; exact absurd rfl hnp
    · exact ⟨f.pending, f.invByCall⟩

theorem reach_ai {x : Sys} (h : Reach w x) (s : Nat) (hf : Fresh x s) : AI s x.dealer (x.client s) (x.up s) (x.down s) (x.sent s) := by
  induction h with
  | new => exact ⟨⟨by simp [Sys.new], by simp [Sys.new], by simp [Sys.new], by simp [Sys.new], by simp [Sys.new]⟩, DI.init, trivial⟩
  | act a hx ha ih =>
    have hc := act_change ha
    have ih := ih (hf.back hc)
    cases hc with
    | admin bop dop j h1 h2 h3 =>
      obtain ⟨e1, e2⟩ := admin_frame h2 h3
      exact ih.quiet e1 e2
    | send s' data m c v h1 =>
      by_cases hs : s = s'
      · subst hs
        simp only [upd_same]
        rename_i x' y'
        have hf' : (reqs (m :: x'.sent s)).Nodup := by simpa only [Fresh, upd_same] using hf
        exact ⟨ih.q.send hf', ih.d.send ih.q h1 hf', (send_tabs ih.q h1 hf').1 _ (fun _ => isAnswer_from) ih.acc⟩
      · simpa only [upd_other _ _ hs] using ih
    | deliver s' m rest h1 =>
      by_cases hs : s = s'
      · subst hs
        simp only [upd_same]
        rw [h1] at ih
        exact ⟨ih.q.deliver, ih.d, ih.acc.2⟩
      · simpa only [upd_other _ _ hs] using ih
    | broker s' m rest wo so op h1 h2 =>
      rename_i x' y'
      have h0 : AI s x'.dealer (x'.client s) (upd x'.up s' rest s) (x'.down s) (x'.sent s) := by
        by_cases hs : s = s'
        · subst hs
          rw [h1] at ih
          simpa only [upd_same] using ih.take
        · simpa only [upd_other _ _ hs] using ih
      have hq : ∀ m' ∈ messagesFor s (brokerOut (Broker.step w x'.broker op).2), fromBroker m' := by
        intro m' hm'
        simp only [messagesFor, List.mem_map, List.mem_filter] at hm'
        obtain ⟨p, ⟨hp, -⟩, rfl⟩ := hm'
        exact brokerOut_from h2 p hp
      obtain ⟨k1, k2⟩ := posts_broker (fun _ => isAnswer_from) hq h0.acc
      refine ⟨h0.q.post (fun m' hm' => .inl (hq m' hm')) (fun m' hm' hd => ?_), ?_, k1⟩
      · have hb := hq m' hm'
        cases m' <;> simp only [fromBroker] at hb <;> exact hd.elim
      · exact h0.d.congr rfl rfl (fun r => k2 .call r trivial) (fun r => k2 .register r trivial) (fun r => k2 .unregister r trivial)
    | dealer s' m rest wo rnd h1 h2 h3 =>
      refine ih.dealer (s' := s') (m := m) ?_ (dstep _ _ _ _ _ h2 h3)
      by_cases hs : s = s'
      · subst hs; exact .inl ⟨rfl, by simp only [upd_same]; exact h1⟩
      · exact .inr ⟨hs, by simp only [upd_other _ _ hs]⟩
    | ignore s' m rest h1 =>
      by_cases hs : s = s'
      · subst hs
        simp only [upd_same]
        rw [h1] at ih
        exact ih.take
      · simpa only [upd_other _ _ hs] using ih

end Wamp.System
