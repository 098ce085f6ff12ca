import Verif.Spec.Session
/-!
# C43–C50 for one caller: the client session
-/
namespace Wamp.Session

/-- `since` in words: there is a `start` event with no `stop` event after it. -/
theorem since_iff (start stop : Event → Bool) (h : List Event) :
    since start stop h = true ↔ ∃ later e earlier, h = later ++ e :: earlier ∧ start e = true ∧ ∀ x ∈ later, stop x = false := by
  induction h with
  | nil => simp [since]
  | cons e h ih =>
    simp only [since, Bool.or_eq_true, Bool.and_eq_true, Bool.not_eq_true', ih]
    constructor
    · rintro (h1 | ⟨h1, a, x, b, rfl, h2, h3⟩)
      · exact ⟨[], e, h, rfl, h1, by simp⟩
      · refine ⟨e :: a, x, b, rfl, h2, ?_⟩
        intro y hy; rcases List.mem_cons.1 hy with rfl | hy
        · exact h1
        · exact h3 y hy
    · rintro ⟨a, x, b, he, h2, h3⟩
      cases a with
      | nil => simp only [List.nil_append, List.cons.injEq] at he; obtain ⟨rfl, rfl⟩ := he; exact Or.inl h2
      | cons y a =>
        simp only [List.cons_append, List.cons.injEq] at he
        obtain ⟨rfl, rfl⟩ := he
        exact Or.inr ⟨h3 e (by simp), a, x, b, rfl, h2, fun z hz => h3 z (by simp [hz])⟩

/-- The outcome is a success. -/
def okB {α : Type} : Res α → Bool
  | .ok _ => true
  | _ => false

theorem go_run {α : Type} (p : Prog (Res α)) (s : State) :
    (Op.prog.go p).run s = ((p.run s).1, okB (p.run s).2) := by
  induction p generalizing s with
  | ret a => cases a <;> simp [Op.prog.go, Prog.run, okB]
  | load t k c ih => simp only [Op.prog.go, Prog.run]; exact ih _ s
  | store t k v c ih => simp only [Op.prog.go, Prog.run]; exact ih _
  | delete t k c ih => simp only [Op.prog.go, Prog.run]; exact ih _
  | loadAndDelete t k c ih => simp only [Op.prog.go, Prog.run]; exact ih _ _

theorem put_apply (s : State) (t t' : Tab) (m : FMap Nat Nat) : s.put t m t' = if t' = t then m else s t' := rfl

/-- The tables reflect the history. -/
structure Reflects (h : List Event) (s : State) : Prop where
  call : ∀ k, (s .call k).isSome = since (callSent k) (callSettled k) h
  register : ∀ k, (s .register k).isSome = since (registerSent k) (registerSettled k) h
  publish : ∀ k, (s .publish k).isSome = since (publishSent k) (publishSettled k) h
  subscribe : ∀ k, (s .subscribe k).isSome = since (subscribeSent k) (errorGot 32 k) h
  unregister : ∀ k, s .unregister k = unregisterAsked k h
  unsubscribe : ∀ k, s .unsubscribe k = unsubscribeAsked k h
  registrations : ∀ g, (s .registrations g).isSome = registered g h
  subscriptions : ∀ g, (s .subscriptions g).isSome = subscribed g h

theorem fail_reflects {h : List Event} {s : State} (r : Reflects h s) (op : Op) : Reflects (⟨op, false⟩ :: h) s := by
  have nf : ∀ (f : Nat → Event → Bool), f ∈ [callSent, registerSent, publishSent, subscribeSent, resultGot, registeredGot,
      publishedGot, subscribedGot, errorGot 32, errorGot 48, errorGot 64, errorGot 16] → ∀ k, f k ⟨op, false⟩ = false := by
    intro f hf k
    simp only [List.mem_cons, List.not_mem_nil, or_false] at hf
    rcases hf with rfl | rfl | rfl | rfl | rfl | rfl | rfl | rfl | rfl | rfl | rfl | rfl <;>
      (rcases op with ⟨d, m⟩ | m <;> cases m <;> rfl)
  refine ⟨fun k => ?_, fun k => ?_, fun k => ?_, fun k => ?_, fun k => ?_, fun k => ?_, fun k => ?_, fun k => ?_⟩
  · simp [since, callSettled, nf callSent, nf resultGot, nf (errorGot 48), r.call]
  · simp [since, registerSettled, nf registerSent, nf registeredGot, nf (errorGot 64), r.register]
  · simp [since, publishSettled, nf publishSent, nf publishedGot, nf (errorGot 16), r.publish]
  · simp [since, nf subscribeSent, nf (errorGot 32), r.subscribe]
  · simpa [unregisterAsked] using r.unregister k
  · simpa [unsubscribeAsked] using r.unsubscribe k
  · simpa [registered] using r.registrations k
  · simpa [subscribed] using r.subscriptions k

theorem isSome_set (x : Option Nat) (r v k : Nat) : (if r = k then some v else x).isSome = (r == k || x.isSome) := by
  by_cases h : r = k <;> simp [h]
theorem isSome_del (x : Option Nat) (r k : Nat) : (if r = k then none else x).isSome = (!(r == k) && x.isSome) := by
  by_cases h : r = k <;> simp [h]
theorem some_bne (g k : Nat) : (some g != some k) = !(g == k) := by
  by_cases h : g = k <;> simp [h, bne]
theorem set_flip (m : FMap Nat Nat) (r v k : Nat) : m.set r v k = if r = k then some v else m k := by
  simp only [FMap.set_apply, eq_comm]
theorem del_flip (m : FMap Nat Nat) (r k : Nat) : m.del r k = if r = k then none else m k := by
  simp only [FMap.del_apply, eq_comm]

/-- Everything `Reflects` refers to, unfolded. -/
macro "reflect" "[" ts:term,* "]" : tactic => `(tactic|
  (refine ⟨fun k => ?_, fun k => ?_, fun k => ?_, fun k => ?_, fun k => ?_, fun k => ?_, fun k => ?_, fun k => ?_⟩ <;>
    simp [since, callSent, callSettled, resultGot, errorGot, registerSent, registerSettled, registeredGot, publishSent,
      publishSettled, publishedGot, subscribeSent, unregisterAsked, unsubscribeAsked, registered, subscribed, put_apply,
      isSome_set, isSome_del, set_flip, del_flip, some_bne, okB, $[$ts:term],*]))

theorem send_reflects {h : List Event} {s : State} (r : Reflects h s) (d : Res Str) (m : Msg) :
    Reflects (⟨.send d m, ((Op.send d m).prog.run s).2⟩ :: h) ((Op.send d m).prog.run s).1 := by
  obtain ⟨r1, r2, r3, r4, r5, r6, r7, r8⟩ := r
  have fail := fun op => fail_reflects (h := h) (s := s) ⟨r1, r2, r3, r4, r5, r6, r7, r8⟩ op
  simp only [Op.prog, go_run]
  cases d with
  | err => exact fail _
  | panic => exact fail _
  | ok b =>
    cases m
    case call => simp only [send, Prog.run]; reflect [r1, r2, r3, r4, r5, r6, r7, r8]
    case yield r o _ _ _ =>
      simp only [send]
      by_cases h : o.flag optProgress = true <;> simp only [h, if_true, if_false, Prog.run, Bool.false_eq_true] <;>
        reflect [r1, r2, r3, r4, r5, r6, r7, r8]
    case register => simp only [send, Prog.run]; reflect [r1, r2, r3, r4, r5, r6, r7, r8]
    case unregister => simp only [send, Prog.run]; reflect [r1, r2, r3, r4, r5, r6, r7, r8]
    case subscribe => simp only [send, Prog.run]; reflect [r1, r2, r3, r4, r5, r6, r7, r8]
    case publish r o _ _ _ =>
      simp only [send]
      by_cases h : o.flag (str "acknowledge") = true <;>
        simp only [h, if_true, if_false, Prog.run, Bool.false_eq_true] <;> reflect [h, r1, r2, r3, r4, r5, r6, r7, r8]
    case goodbye => simp only [send, Prog.run]; reflect [r1, r2, r3, r4, r5, r6, r7, r8]
    case unsubscribe r g =>
      simp only [send, Prog.run]
      cases s .subscriptions g with
      | none => exact fail _
      | some v => simp only [Prog.run]; reflect [r1, r2, r3, r4, r5, r6, r7, r8]
    case error t r _ _ _ _ =>
      simp only [send]
      by_cases h : t = 68 <;> simp only [h, ne_eq, not_true, not_false_eq_true, if_true, if_false, Prog.run]
      · reflect [r1, r2, r3, r4, r5, r6, r7, r8]
      · exact fail _
    all_goals exact fail _

theorem errorTab_cases (t : Nat) : t = 48 ∨ t = 64 ∨ t = 66 ∨ t = 32 ∨ t = 34 ∨ t = 16 ∨ errorTab t = none := by
  unfold errorTab
  split <;> simp

theorem recv_reflects {h : List Event} {s : State} (r : Reflects h s) (m : Msg) :
    Reflects (⟨.recv m, ((Op.recv m).prog.run s).2⟩ :: h) ((Op.recv m).prog.run s).1 := by
  obtain ⟨r1, r2, r3, r4, r5, r6, r7, r8⟩ := r
  have fail := fun op => fail_reflects (h := h) (s := s) ⟨r1, r2, r3, r4, r5, r6, r7, r8⟩ op
  have del : ∀ t k, s t k = none → s.put t ((s t).del k) = s := by
    intro t k h; funext t' k'
    by_cases ht : t' = t
    · subst ht; simp only [put_apply, if_true, FMap.del_apply]; split <;> simp_all
    · simp [put_apply, ht]
  simp only [Op.prog, go_run]
  cases m
  case result r d _ _ _ =>
    simp only [recv, Prog.run]
    cases hk : s .call r with
    | none => exact fail _
    | some v =>
      by_cases h : d.flag optProgress = true <;> simp only [h, if_true, if_false, Prog.run, Bool.false_eq_true] <;>
        unfold optProgress at h <;> reflect [h, r1, r2, r3, r4, r5, r6, r7, r8]
  case registered r g =>
    simp only [recv, Prog.run]
    cases hk : s .register r with
    | none => simp only [Prog.run, del _ _ hk]; exact fail _
    | some v => simp only [Prog.run]; reflect [r1, r2, r3, r4, r5, r6, r7, r8]
  case unregistered r =>
    simp only [recv, Prog.run]
    cases hk : s .unregister r with
    | none => exact fail _
    | some g =>
      simp only [Prog.run]
      cases hg : s .registrations g with
      | none => simp only [Prog.run, del _ _ hg]; exact fail _
      | some v => simp only [Prog.run]; rw [r5] at hk; reflect [hk, r1, r2, r3, r4, r5, r6, r7, r8]
  case invocation r g _ _ _ _ =>
    simp only [recv, Prog.run]
    cases hk : s .registrations g with
    | none => exact fail _
    | some v => simp only [Prog.run]; reflect [r1, r2, r3, r4, r5, r6, r7, r8]
  case published r g =>
    simp only [recv, Prog.run]
    cases hk : s .publish r with
    | none => simp only [Prog.run, del _ _ hk]; exact fail _
    | some v => simp only [Prog.run]; reflect [r1, r2, r3, r4, r5, r6, r7, r8]
  case subscribed r g =>
    simp only [recv, Prog.run]
    cases hk : s .subscribe r with
    | none => exact fail _
    | some v => simp only [Prog.run]; reflect [r1, r2, r3, r4, r5, r6, r7, r8]
  case unsubscribed r =>
    simp only [recv, Prog.run]
    cases hk : s .unsubscribe r with
    | none => exact fail _
    | some g =>
      simp only [Prog.run]
      cases hg : s .subscriptions g with
      | none => simp only [Prog.run, del _ _ hg]; exact fail _
      | some v => simp only [Prog.run]; rw [r6] at hk; reflect [hk, r1, r2, r3, r4, r5, r6, r7, r8]
  case event g _ _ _ _ =>
    simp only [recv, Prog.run]
    cases hk : s .subscriptions g with
    | none => exact fail _
    | some v => simp only [Prog.run]; reflect [r1, r2, r3, r4, r5, r6, r7, r8]
  case error t r _ _ _ _ =>
    rcases errorTab_cases t with rfl | rfl | rfl | rfl | rfl | rfl | ht
    case inr.inr.inr.inr.inr.inr => simp only [recv, ht, Prog.run]; exact fail _
    all_goals
      simp only [recv, errorTab, Prog.run]
      generalize hk : s _ r = v
      cases v with
      | none => simp only [Prog.run, del _ _ hk]; exact fail _
      | some v => simp only [Prog.run]; reflect [r1, r2, r3, r4, r5, r6, r7, r8]
  case goodbye => simp only [recv, Prog.run]; reflect [r1, r2, r3, r4, r5, r6, r7, r8]
  case abort => simp only [recv, Prog.run]; reflect [r1, r2, r3, r4, r5, r6, r7, r8]
  all_goals exact fail _

theorem hist_reflects {h : List Event} {s : State} (hh : Hist h s) : Reflects h s := by
  induction hh with
  | new => refine ⟨fun k => ?_, fun k => ?_, fun k => ?_, fun k => ?_, fun k => ?_, fun k => ?_, fun k => ?_, fun k => ?_⟩ <;> rfl
  | step op _ ih =>
    cases op with
    | send d m => exact send_reflects ih d m
    | recv m => exact recv_reflects ih m

theorem some_iff {x : Option Nat} : x.isSome = true ↔ ∃ v, x = some v := Option.isSome_iff_exists

/-- When a received message is accepted, in terms of the tables. -/
theorem accepts_tab (s : State) (m : Msg) : Accepts s m ↔
    match m with
    | .result r _ _ _ _ => (s .call r).isSome
    | .registered r _ => (s .register r).isSome
    | .unregistered r => ∃ g, s .unregister r = some g ∧ (s .registrations g).isSome
    | .invocation _ g _ _ _ _ => (s .registrations g).isSome
    | .published r _ => (s .publish r).isSome
    | .subscribed r _ => (s .subscribe r).isSome
    | .unsubscribed r => ∃ g, s .unsubscribe r = some g ∧ (s .subscriptions g).isSome
    | .event g _ _ _ _ => (s .subscriptions g).isSome
    | .error t r _ _ _ _ => ∃ tab, errorTab t = some tab ∧ (s tab r).isSome
    | .goodbye .. => True
    | .abort .. => True
    | _ => False := by
  unfold Accepts
  cases m
  case result r d _ _ _ =>
    simp only [recv, Prog.run]
    cases s .call r <;> simp [Prog.run]
    split <;> simp [Prog.run]
  case unregistered r =>
    simp only [recv, Prog.run]
    cases s .unregister r with
    | none => simp [Prog.run]
    | some g => simp only [Prog.run]; cases hg : s .registrations g <;> simp_all [Prog.run]
  case unsubscribed r =>
    simp only [recv, Prog.run]
    cases s .unsubscribe r with
    | none => simp [Prog.run]
    | some g => simp only [Prog.run]; cases hg : s .subscriptions g <;> simp_all [Prog.run]
  case error t r _ _ _ _ =>
    simp only [recv]
    cases errorTab t with
    | none => simp [Prog.run]
    | some tab => simp only [Prog.run]; cases hg : s tab r <;> simp_all [Prog.run]
  case registered r g => simp only [recv, Prog.run]; cases s .register r <;> simp_all [Prog.run]
  case invocation r g _ _ _ _ => simp only [recv, Prog.run]; cases s .registrations g <;> simp_all [Prog.run]
  case published r g => simp only [recv, Prog.run]; cases s .publish r <;> simp_all [Prog.run]
  case subscribed r g => simp only [recv, Prog.run]; cases s .subscribe r <;> simp_all [Prog.run]
  case event g _ _ _ _ => simp only [recv, Prog.run]; cases s .subscriptions g <;> simp_all [Prog.run]
  all_goals simp [recv, Prog.run]

/-- **C43** (partial) For every history:
* RESULT, REGISTERED, PUBLISHED and the ERRORs answering CALL, REGISTER and PUBLISH are accepted exactly when such a request
  was sent and has not been settled since;
* EVENT and INVOCATION are accepted exactly when the subscription or registration is confirmed.

Missing: SUBSCRIBED, UNREGISTERED, UNSUBSCRIBED (see `C43_settled_but_accepted`); what is true of them is `C43_other_kinds`. -/
theorem C43_accepts_partial {h : List Event} {s : State} (hh : Hist h s) (r g : Nat) :
    (∀ d a k b, Accepts s (.result r d a k b) ↔ since (callSent r) (callSettled r) h = true) ∧
    (∀ d u a k, Accepts s (.error 48 r d u a k) ↔ since (callSent r) (callSettled r) h = true) ∧
    (Accepts s (.registered r g) ↔ since (registerSent r) (registerSettled r) h = true) ∧
    (∀ d u a k, Accepts s (.error 64 r d u a k) ↔ since (registerSent r) (registerSettled r) h = true) ∧
    (∀ p, Accepts s (.published r p) ↔ since (publishSent r) (publishSettled r) h = true) ∧
    (∀ d u a k, Accepts s (.error 16 r d u a k) ↔ since (publishSent r) (publishSettled r) h = true) ∧
    (∀ p d a k, Accepts s (.event g p d a k) ↔ subscribed g h = true) ∧
    (∀ d a k b, Accepts s (.invocation r g d a k b) ↔ registered g h = true) := by
  have R := hist_reflects hh
  simp only [accepts_tab, errorTab, R.call, R.register, R.publish, R.subscriptions, R.registrations, Option.some.injEq,
    exists_eq_left', implies_true, and_self]

/-- What holds for the remaining messages: SUBSCRIBED and its ERROR are accepted from the SUBSCRIBE until an ERROR;
UNREGISTERED (UNSUBSCRIBED) is accepted when the last request with that ID was not answered by an ERROR and the registration
(subscription) it names is confirmed; GOODBYE and ABORT always; everything else never. -/
theorem C43_other_kinds {h : List Event} {s : State} (hh : Hist h s) (r g : Nat) :
    (Accepts s (.subscribed r g) ↔ since (subscribeSent r) (errorGot 32 r) h = true) ∧
    (∀ d u a k, Accepts s (.error 32 r d u a k) ↔ since (subscribeSent r) (errorGot 32 r) h = true) ∧
    (Accepts s (.unregistered r) ↔ ∃ g, unregisterAsked r h = some g ∧ registered g h = true) ∧
    (∀ d u a k, Accepts s (.error 66 r d u a k) ↔ ∃ g, unregisterAsked r h = some g) ∧
    (Accepts s (.unsubscribed r) ↔ ∃ g, unsubscribeAsked r h = some g ∧ subscribed g h = true) ∧
    (∀ d u a k, Accepts s (.error 34 r d u a k) ↔ ∃ g, unsubscribeAsked r h = some g) ∧
    (∀ t d u a k, t ∉ [48, 64, 66, 32, 34, 16] → ¬ Accepts s (.error t r d u a k)) ∧
    (∀ m, m.kind ∉ [.result, .registered, .unregistered, .invocation, .published, .subscribed, .unsubscribed, .event, .error,
      .goodbye, .abort] → ¬ Accepts s m) := by
  have R := hist_reflects hh
  refine ⟨?_, ?_, ?_, ?_, ?_, ?_, ?_, ?_⟩
  · simp only [accepts_tab, R.subscribe]
  · simp only [accepts_tab, errorTab, R.subscribe, Option.some.injEq, exists_eq_left', implies_true]
  · simp only [accepts_tab, R.unregister, R.registrations]
  · simp only [accepts_tab, errorTab, R.unregister, Option.some.injEq, exists_eq_left', some_iff, implies_true]
  · simp only [accepts_tab, R.unsubscribe, R.subscriptions]
  · simp only [accepts_tab, errorTab, R.unsubscribe, Option.some.injEq, exists_eq_left', some_iff, implies_true]
  · intro t d u a k ht
    rw [accepts_tab]
    rcases errorTab_cases t with rfl | rfl | rfl | rfl | rfl | rfl | h <;> simp_all
  · intro m hm
    rw [accepts_tab]
    cases m <;> simp_all [Msg.kind]

/-- **C43** (refuted for SUBSCRIBED) The SUBSCRIBE with ID 1 was answered by SUBSCRIBED, yet another SUBSCRIBED is accepted. -/
theorem C43_settled_but_accepted :
    ∃ h s, Hist h s ∧ since (subscribeSent 1) (subscribeSettled 1) h = false ∧ Accepts s (.subscribed 1 9) :=
  ⟨_, _, .step (.recv (.subscribed 1 9)) (.step (.send (.ok []) (.subscribe 1 none [])) .new), rfl, rfl⟩

/-- A history in which two calls, a registration and a publication are outstanding. -/
example : ∃ h s, Hist h s ∧ since (callSent 1) (callSettled 1) h = true ∧ since (callSent 2) (callSettled 2) h = false ∧
    since (registerSent 1) (registerSettled 1) h = true :=
  ⟨_, _, .step (.send (.ok []) (.register 1 none [])) (.step (.recv (.result 2 none none none .none))
    (.step (.send (.ok []) (.call 2 none [] none none .none)) (.step (.send (.ok []) (.call 1 none [] none none .none)) .new))),
    rfl, rfl, rfl⟩

/-! ### Counting -/

theorem count_since {start stop : Event → Bool}
    (disj : ∀ e, stop e = true → start e = false)
    (guard : ∀ {h s} (op : Op), Hist h s → stop ⟨op, (op.prog.run s).2⟩ = true → since start stop h = true)
    {h : List Event} {s : State} (hh : Hist h s) :
    h.countP stop + (since start stop h).toNat ≤ h.countP start := by
  induction hh with
  | new => simp [since]
  | @step h s op hp ih =>
    simp only [List.countP_cons, since]
    have g := guard op hp
    cases h1 : stop ⟨op, (op.prog.run s).2⟩ <;> cases h2 : start ⟨op, (op.prog.run s).2⟩
    · simpa using ih
    · have := (since start stop h).toNat_le
      simp; omega
    · have h3 := g h1
      rw [h3] at ih
      simp only [Bool.toNat_true] at ih
      simp; omega
    · have := disj _ h1; rw [h2] at this; cases this

theorem recv_ok {s : State} {m : Msg} (h : ((Op.recv m).prog.run s).2 = true) : Accepts s m := by
  simp only [Op.prog, go_run] at h
  have : ∀ (p : Prog (Res Msg)) s, (∀ m', (p.run s).2 = .ok m' → m' = m) →
      okB (p.run s).2 = true → (p.run s).2 = .ok m := by
    intro p s h1 h2
    cases hr : (p.run s).2 with
    | ok m' => rw [h1 m' hr]
    | err => rw [hr] at h2; cases h2
    | panic => rw [hr] at h2; cases h2
  refine this _ _ ?_ h
  intro m' hm
  cases m
  case result r d _ _ _ =>
    simp only [recv, Prog.run] at hm
    cases hc : s .call r <;> rw [hc] at hm <;> simp [Prog.run] at hm
    split at hm <;> simp [Prog.run] at hm <;> exact hm.symm
  case unregistered r =>
    simp only [recv, Prog.run] at hm
    cases hu : s .unregister r with
    | none => rw [hu] at hm; simp [Prog.run] at hm
    | some g => rw [hu] at hm; simp only [Prog.run] at hm; cases hg : s .registrations g <;> rw [hg] at hm <;> simp [Prog.run] at hm; exact hm.symm
  case unsubscribed r =>
    simp only [recv, Prog.run] at hm
    cases hu : s .unsubscribe r with
    | none => rw [hu] at hm; simp [Prog.run] at hm
    | some g => rw [hu] at hm; simp only [Prog.run] at hm; cases hg : s .subscriptions g <;> rw [hg] at hm <;> simp [Prog.run] at hm; exact hm.symm
  case error t r _ _ _ _ =>
    simp only [recv] at hm
    cases he : errorTab t with
    | none => rw [he] at hm; simp [Prog.run] at hm
    | some tab => rw [he] at hm; simp only [Prog.run] at hm; cases hg : s tab r <;> rw [hg] at hm <;> simp [Prog.run] at hm; exact hm.symm
  case registered r g => simp only [recv, Prog.run] at hm; cases hg : s .register r <;> rw [hg] at hm <;> simp [Prog.run] at hm; exact hm.symm
  case invocation r g _ _ _ _ => simp only [recv, Prog.run] at hm; cases hg : s .registrations g <;> rw [hg] at hm <;> simp [Prog.run] at hm; exact hm.symm
  case published r g => simp only [recv, Prog.run] at hm; cases hg : s .publish r <;> rw [hg] at hm <;> simp [Prog.run] at hm; exact hm.symm
  case subscribed r g => simp only [recv, Prog.run] at hm; cases hg : s .subscribe r <;> rw [hg] at hm <;> simp [Prog.run] at hm; exact hm.symm
  case event g _ _ _ _ => simp only [recv, Prog.run] at hm; cases hg : s .subscriptions g <;> rw [hg] at hm <;> simp [Prog.run] at hm; exact hm.symm
  all_goals simp [recv, Prog.run] at hm <;> exact hm.symm

/-- **C44** In every history, for every request ID: the final RESULTs and CALL-ERRORs accepted, plus one if the call is still
open, are at most as many as the CALLs sent with that ID. -/
theorem C44_one_answer_per_call {h : List Event} {s : State} (hh : Hist h s) (k : Nat) :
    h.countP (callSettled k) + (since (callSent k) (callSettled k) h).toNat ≤ h.countP (callSent k) := by
  refine count_since ?_ ?_ hh
  · rintro ⟨op, ok⟩ h
    rcases op with ⟨d, m⟩ | m <;> cases m <;> cases ok <;> simp_all [callSettled, resultGot, errorGot, callSent]
  · intro h s op hp hs
    rcases op with ⟨d, m⟩ | m
    · generalize ((Op.send d m).prog.run s).2 = b at hs
      cases m <;> cases b <;> simp [callSettled, resultGot, errorGot] at hs
    · cases hb : ((Op.recv m).prog.run s).2
      · rw [hb] at hs; cases m <;> simp [callSettled, resultGot, errorGot] at hs
      · have ha := recv_ok hb
        obtain ⟨c1, c2, -⟩ := C43_accepts_partial hp k 0
        rw [hb] at hs
        cases m <;> simp [callSettled, resultGot, errorGot] at hs
        · obtain ⟨rfl, rfl⟩ := hs; exact (c2 ..).1 ha
        · obtain ⟨rfl, _⟩ := hs; exact (c1 ..).1 ha

example : ∃ h s, Hist h s ∧ h.countP (callSettled 1) = 1 ∧ h.countP (callSent 1) = 2 ∧ since (callSent 1) (callSettled 1) h = true :=
  ⟨_, _, .step (.send (.ok []) (.call 1 none [] none none .none)) (.step (.recv (.result 1 none none none .none))
    (.step (.send (.ok []) (.call 1 none [] none none .none)) .new)), rfl, rfl, rfl⟩

theorem unregisterAsked_since (k : Nat) (h : List Event) :
    (unregisterAsked k h).isSome = since (unregisterSent k) (errorGot 66 k) h := by
  induction h with
  | nil => rfl
  | cons e h ih =>
    rcases e with ⟨op, ok⟩
    cases ok
    · rcases op with ⟨d, m⟩ | m <;> cases m <;> simpa [unregisterAsked, since, unregisterSent, errorGot] using ih
    · rcases op with ⟨d, m⟩ | m
      · cases m <;> simp [unregisterAsked, since, unregisterSent, errorGot, ih, isSome_set]
      · cases m <;> try simp [unregisterAsked, since, unregisterSent, errorGot, ih, isSome_del]
        next t r _ _ _ _ =>
        by_cases ht : t = 66
        · subst ht; simp [unregisterAsked, ih, isSome_del]
        · have : (t == 66) = false := by simpa using ht
          simp [unregisterAsked, ht, this, ih]

theorem unsubscribeAsked_since (k : Nat) (h : List Event) :
    (unsubscribeAsked k h).isSome = since (unsubscribeSent k) (errorGot 34 k) h := by
  induction h with
  | nil => rfl
  | cons e h ih =>
    rcases e with ⟨op, ok⟩
    cases ok
    · rcases op with ⟨d, m⟩ | m <;> cases m <;> simpa [unsubscribeAsked, since, unsubscribeSent, errorGot] using ih
    · rcases op with ⟨d, m⟩ | m
      · cases m <;> simp [unsubscribeAsked, since, unsubscribeSent, errorGot, ih, isSome_set]
      · cases m <;> try simp [unsubscribeAsked, since, unsubscribeSent, errorGot, ih, isSome_del]
        next t r _ _ _ _ =>
        by_cases ht : t = 34
        · subst ht; simp [unsubscribeAsked, ih, isSome_del]
        · have : (t == 34) = false := by simpa using ht
          simp [unsubscribeAsked, ht, this, ih]

theorem errors_bounded {t k : Nat} {start : Event → Bool} (hstart : ∀ e, errorGot t k e = true → start e = false)
    (hacc : ∀ {h s}, Hist h s → ∀ d u a kw, Accepts s (.error t k d u a kw) → since start (errorGot t k) h = true)
    {h : List Event} {s : State} (hh : Hist h s) :
    h.countP (errorGot t k) + (since start (errorGot t k) h).toNat ≤ h.countP start := by
  refine count_since hstart ?_ hh
  intro h s op hp hs
  rcases op with ⟨d, m⟩ | m
  · generalize ((Op.send d m).prog.run s).2 = b at hs
    cases m <;> cases b <;> simp [errorGot] at hs
  · cases hb : ((Op.recv m).prog.run s).2
    · rw [hb] at hs; cases m <;> simp [errorGot] at hs
    · have ha := recv_ok hb
      rw [hb] at hs
      cases m <;> simp [errorGot] at hs
      obtain ⟨rfl, rfl⟩ := hs
      exact hacc hp _ _ _ _ ha

/-- **C47** (refuted) Two SUBSCRIBED are accepted for one SUBSCRIBE; and two UNREGISTERED for one UNREGISTER (when the same
registration ID is confirmed again in between). -/
theorem C47_settled_twice :
    (∃ h s, Hist h s ∧ h.countP (subscribeSent 1) = 1 ∧ h.countP (subscribedGot 1) = 2) ∧
    (∃ h s, Hist h s ∧ h.countP (unregisterSent 5) = 1 ∧
      h.countP (fun e => match e with | ⟨.recv (.unregistered 5), true⟩ => true | _ => false) = 2) :=
  ⟨⟨_, _, .step (.recv (.subscribed 1 9)) (.step (.recv (.subscribed 1 9)) (.step (.send (.ok []) (.subscribe 1 none [])) .new)),
    rfl, rfl⟩,
   ⟨_, _, .step (.recv (.unregistered 5)) (.step (.recv (.registered 2 9)) (.step (.send (.ok []) (.register 2 none []))
      (.step (.recv (.unregistered 5)) (.step (.send (.ok []) (.unregister 5 9)) (.step (.recv (.registered 1 9))
      (.step (.send (.ok []) (.register 1 none [])) .new)))))), rfl, rfl⟩⟩

/-- **C47** (partial) In every history: the ERRORs accepted for SUBSCRIBE, UNREGISTER and UNSUBSCRIBE are at most as many as
those requests; and a SUBSCRIBED is accepted only if a SUBSCRIBE with that ID was sent and not answered by an ERROR since.
Missing: SUBSCRIBED, UNREGISTERED and UNSUBSCRIBED do not settle the request, see `C47_settled_twice`. -/
theorem C47_errors_partial {h : List Event} {s : State} (hh : Hist h s) (k g : Nat) :
    h.countP (errorGot 32 k) ≤ h.countP (subscribeSent k) ∧
    h.countP (errorGot 66 k) ≤ h.countP (unregisterSent k) ∧
    h.countP (errorGot 34 k) ≤ h.countP (unsubscribeSent k) ∧
    (Accepts s (.subscribed k g) → ∃ later e earlier, h = later ++ e :: earlier ∧ subscribeSent k e = true ∧
      ∀ x ∈ later, errorGot 32 k x = false) := by
  refine ⟨?_, ?_, ?_, ?_⟩
  · refine Nat.le_trans (Nat.le_add_right _ _) (errors_bounded ?_ ?_ hh)
    · rintro ⟨op, ok⟩ h
      rcases op with ⟨d, m⟩ | m <;> cases m <;> cases ok <;> simp_all [errorGot, subscribeSent]
    · intro h s hp d u a kw ha; exact ((C43_other_kinds hp k 0).2.1 d u a kw).1 ha
  · refine Nat.le_trans (Nat.le_add_right _ _) (errors_bounded ?_ ?_ hh)
    · rintro ⟨op, ok⟩ h
      rcases op with ⟨d, m⟩ | m <;> cases m <;> cases ok <;> simp_all [errorGot, unregisterSent]
    · intro h s hp d u a kw ha
      rw [← unregisterAsked_since, some_iff]
      exact ((C43_other_kinds hp k 0).2.2.2.1 d u a kw).1 ha
  · refine Nat.le_trans (Nat.le_add_right _ _) (errors_bounded ?_ ?_ hh)
    · rintro ⟨op, ok⟩ h
      rcases op with ⟨d, m⟩ | m <;> cases m <;> cases ok <;> simp_all [errorGot, unsubscribeSent]
    · intro h s hp d u a kw ha
      rw [← unsubscribeAsked_since, some_iff]
      exact ((C43_other_kinds hp k 0).2.2.2.2.2.1 d u a kw).1 ha
  · intro ha
    exact (since_iff _ _ _).1 ((C43_other_kinds hh k g).1.1 ha)

theorem del_absent (s : State) (t : Tab) (k : Nat) (h : s t k = none) : s.put t ((s t).del k) = s := by
  funext t' k'
  by_cases ht : t' = t
  · subst ht; simp only [put_apply, if_true, FMap.del_apply]; split <;> simp_all
  · simp [put_apply, ht]

/-- **C48** In every state: a `SendMessage` or `ReceiveMessage` that does not succeed leaves the session exactly as it was, so
everything that happens later is as if the call had not been made. -/
theorem C48_failed_call_no_effect (s : State) (op : Op) (h : (op.prog.run s).2 = false) : (op.prog.run s).1 = s := by
  rcases op with ⟨d, m⟩ | m
  · simp only [Op.prog, go_run] at h ⊢
    cases d with
    | err => rfl
    | panic => rfl
    | ok b =>
      cases m
      case unsubscribe r g =>
        simp only [send, Prog.run] at h ⊢
        cases hg : s .subscriptions g <;> simp_all [Prog.run, okB]
      case yield r o _ _ _ =>
        simp only [send] at h ⊢; split <;> rename_i hf <;> simp [hf, Prog.run, okB] at h
      case publish r o _ _ _ =>
        simp only [send] at h ⊢; split <;> rename_i hf <;> simp [hf, Prog.run, okB] at h
      case error t r _ _ _ _ =>
        simp only [send] at h ⊢; split <;> rename_i hf <;> simp [hf, Prog.run, okB] at h ⊢
      all_goals simp [send, Prog.run, okB] at h ⊢
  · simp only [Op.prog, go_run] at h ⊢
    cases m
    case result r d _ _ _ =>
      simp only [recv, Prog.run] at h ⊢
      cases hc : s .call r
      · simp [Prog.run]
      · rw [hc] at h; simp only at h; split at h <;> simp [Prog.run, okB] at h
    case unregistered r =>
      simp only [recv, Prog.run] at h ⊢
      cases hu : s .unregister r with
      | none => simp [Prog.run]
      | some g =>
        rw [hu] at h; simp only [Prog.run] at h ⊢
        cases hg : s .registrations g with
        | none => simp [Prog.run, del_absent _ _ _ hg]
        | some v => rw [hg] at h; simp [Prog.run, okB] at h
    case unsubscribed r =>
      simp only [recv, Prog.run] at h ⊢
      cases hu : s .unsubscribe r with
      | none => simp [Prog.run]
      | some g =>
        rw [hu] at h; simp only [Prog.run] at h ⊢
        cases hg : s .subscriptions g with
        | none => simp [Prog.run, del_absent _ _ _ hg]
        | some v => rw [hg] at h; simp [Prog.run, okB] at h
    case error t r _ _ _ _ =>
      simp only [recv] at h ⊢
      cases he : errorTab t with
      | none => simp [Prog.run]
      | some tab =>
        rw [he] at h; simp only [Prog.run] at h ⊢
        cases hg : s tab r with
        | none => simp [Prog.run, del_absent _ _ _ hg]
        | some v => rw [hg] at h; simp [Prog.run, okB] at h
    case registered r g =>
      simp only [recv, Prog.run] at h ⊢
      cases hg : s .register r with
      | none => simp [Prog.run, del_absent _ _ _ hg]
      | some v => rw [hg] at h; simp [Prog.run, okB] at h
    case published r g =>
      simp only [recv, Prog.run] at h ⊢
      cases hg : s .publish r with
      | none => simp [Prog.run, del_absent _ _ _ hg]
      | some v => rw [hg] at h; simp [Prog.run, okB] at h
    case invocation r g _ _ _ _ =>
      simp only [recv, Prog.run] at h ⊢
      cases hg : s .registrations g with
      | none => simp [Prog.run]
      | some v => rw [hg] at h; simp [Prog.run, okB] at h
    case subscribed r g =>
      simp only [recv, Prog.run] at h ⊢
      cases hg : s .subscribe r with
      | none => simp [Prog.run]
      | some v => rw [hg] at h; simp [Prog.run, okB] at h
    case event g _ _ _ _ =>
      simp only [recv, Prog.run] at h ⊢
      cases hg : s .subscriptions g with
      | none => simp [Prog.run]
      | some v => simp [Prog.run]
    all_goals simp [recv, Prog.run]

/-- The same for bytes that cannot be decoded or that crash the decoder. -/
theorem C48_bad_bytes_no_effect (c : Codec) (s : State) (data : Str) (h : ∀ m, ((receive c data).run s).2 ≠ .ok m) :
    ((receive c data).run s).1 = s := by
  unfold receive at h ⊢
  cases hd : c.deserialize data with
  | ok m =>
    rw [hd] at h
    have := C48_failed_call_no_effect s (.recv m)
    simp only [Op.prog, go_run] at this
    apply this
    cases hr : ((recv m).run s).2 with
    | ok m' => exact absurd hr (h m')
    | err => rfl
    | panic => rfl
  | err => rfl
  | panic => rfl

/-- Hypotheses are met by an UNSUBSCRIBE for an unknown subscription. -/
example : ((Op.send (.ok []) (.unsubscribe 1 2)).prog.run init).2 = false := rfl

/-! ### Independence -/

/-- The family a table belongs to. -/
def Tab.family : Tab → Family
  | .call => .call
  | .publish => .publish
  | .register => .registration
  | .registrations => .registration
  | .unregister => .registration
  | .invocation => .registration
  | .subscribe => .subscription
  | .subscriptions => .subscription
  | .unsubscribe => .subscription

/-- All tables a program may write belong to the family. -/
def Writes (f : Family) {α : Type} : Prog α → Prop
  | .ret _ => True
  | .load _ _ c => ∀ v, Writes f (c v)
  | .store t _ _ c => t.family = f ∧ Writes f c
  | .delete t _ c => t.family = f ∧ Writes f c
  | .loadAndDelete t _ c => t.family = f ∧ ∀ v, Writes f (c v)

theorem writes_run {f : Family} {α : Type} (p : Prog α) (hw : Writes f p) (s : State) (t : Tab) (ht : t.family ≠ f) :
    (p.run s).1 t = s t := by
  induction p generalizing s with
  | ret a => rfl
  | load t' k c ih => exact ih _ (hw _) s
  | store t' k v c ih =>
    simp only [Prog.run]
    rw [ih hw.2, put_apply, if_neg]; rintro rfl; exact ht hw.1
  | delete t' k c ih =>
    simp only [Prog.run]
    rw [ih hw.2, put_apply, if_neg]; rintro rfl; exact ht hw.1
  | loadAndDelete t' k c ih =>
    simp only [Prog.run]
    rw [ih _ (hw.2 _), put_apply, if_neg]; rintro rfl; exact ht hw.1

theorem send_writes (d : Res Str) (m : Msg) : Writes (family m) (send d m) := by
  cases d with
  | err => trivial
  | panic => trivial
  | ok b =>
    cases m
    case unsubscribe r g => intro v; cases v <;> simp [Writes, Tab.family, family]
    case error t r _ _ _ _ =>
      simp only [send]
      by_cases h : t = 68
      · subst h; simp [Writes, Tab.family, family, errorFamily]
      · simp [h, Writes]
    case yield r o _ _ _ => simp only [send]; split <;> simp [Writes, Tab.family, family]
    case publish r o _ _ _ => simp only [send]; split <;> simp [Writes, Tab.family, family]
    all_goals simp [send, Writes, Tab.family, family]

theorem recv_writes (m : Msg) : Writes (family m) (recv m) := by
  cases m
  case result r d _ _ _ =>
    intro v; cases v
    · trivial
    · simp only; split <;> simp [Writes, Tab.family, family]
  case unregistered r =>
    intro v; cases v
    · trivial
    · refine ⟨rfl, fun v => ?_⟩; cases v <;> trivial
  case unsubscribed r =>
    intro v; cases v
    · trivial
    · refine ⟨rfl, fun v => ?_⟩; cases v <;> trivial
  case error t r _ _ _ _ =>
    simp only [recv]
    rcases errorTab_cases t with rfl | rfl | rfl | rfl | rfl | rfl | ht
    case inr.inr.inr.inr.inr.inr => rw [ht]; trivial
    all_goals refine ⟨rfl, fun v => ?_⟩; cases v <;> trivial
  case registered => refine ⟨rfl, fun v => ?_⟩; cases v <;> simp [Writes, Tab.family, family]
  case published => refine ⟨rfl, fun v => ?_⟩; cases v <;> trivial
  case invocation => intro v; cases v <;> simp [Writes, Tab.family, family]
  case subscribed => intro v; cases v <;> simp [Writes, Tab.family, family]
  case event => intro v; cases v <;> trivial
  all_goals trivial

theorem accepts_reads {s s' : State} (m : Msg) (h : ∀ t, t.family = family m → s t = s' t) :
    Accepts s m ↔ Accepts s' m := by
  rw [accepts_tab, accepts_tab]
  cases m
  case error t r _ _ _ _ =>
    rcases errorTab_cases t with rfl | rfl | rfl | rfl | rfl | rfl | ht
    case inr.inr.inr.inr.inr.inr => simp [ht]
    all_goals simp only [errorTab, Option.some.injEq, exists_eq_left']; rw [h _ rfl]
  case result => simp only; rw [h .call rfl]
  case registered => simp only; rw [h .register rfl]
  case unregistered => simp only; rw [h .unregister rfl, h .registrations rfl]
  case invocation => simp only; rw [h .registrations rfl]
  case published => simp only; rw [h .publish rfl]
  case subscribed => simp only; rw [h .subscribe rfl]
  case unsubscribed => simp only; rw [h .unsubscribe rfl, h .subscriptions rfl]
  case event => simp only; rw [h .subscriptions rfl]
  all_goals exact Iff.rfl

theorem errorTab_inj {n n' : Nat} {t : Tab} (h : errorTab n = some t) (h' : errorTab n' = some t) : n = n' := by
  rcases errorTab_cases n with rfl | rfl | rfl | rfl | rfl | rfl | hn <;>
  rcases errorTab_cases n' with rfl | rfl | rfl | rfl | rfl | rfl | hn' <;>
  first
    | rfl
    | (rw [hn] at h; cases h)
    | (rw [hn'] at h'; cases h')
    | (cases h; cases h')

theorem errorTab_regs (n : Nat) :
    errorTab n ≠ some .registrations ∧ errorTab n ≠ some .subscriptions ∧ errorTab n ≠ some .invocation := by
  rcases errorTab_cases n with rfl | rfl | rfl | rfl | rfl | rfl | hn
  case inr.inr.inr.inr.inr.inr => rw [hn]; simp
  all_goals simp [errorTab]

/-- **C49** In every state: a call (successful or not) whose message belongs to another family (calls, publications,
registrations, subscriptions) does not change whether a message is accepted; and sending a message changes it only for the
answers to the very request sent (same kind and same ID). -/
theorem C49_kinds_independent (s : State) (op : Op) (m : Msg) :
    (family op.msg ≠ family m → (Accepts (op.prog.run s).1 m ↔ Accepts s m)) ∧
    (∀ d m0, op = .send d m0 → (answers m = none ∨ answers m ≠ request m0) → (Accepts (op.prog.run s).1 m ↔ Accepts s m)) := by
  refine ⟨fun hf => accepts_reads m fun t ht => ?_, ?_⟩
  · rcases op with ⟨d, m0⟩ | m0
    · simp only [Op.prog, go_run]
      exact writes_run _ (send_writes d m0) s t (by rw [ht]; exact fun h => hf h.symm)
    · simp only [Op.prog, go_run]
      exact writes_run _ (recv_writes m0) s t (by rw [ht]; exact fun h => hf h.symm)
  · rintro d m0 rfl hne
    simp only [Op.prog, go_run]
    -- only the entry of the request itself changes, apart from the invocation table, which is never read
    have key : ∀ t k, t ≠ .invocation → (∀ n, request m0 = some (n, k) → errorTab n ≠ some t) →
        ((send d m0).run s).1 t k = s t k := by
      intro t k hti hreq
      cases d with
      | err => rfl
      | panic => rfl
      | ok b =>
        have st : ∀ t' r v, (t' = t → r ≠ k) → (s.put t' ((s t').set r v)) t k = s t k := by
          intro t' r v h
          by_cases ht : t = t'
          · subst ht; simp only [put_apply, if_true]; exact FMap.set_other _ _ (Ne.symm (h rfl))
          · simp [put_apply, ht]
        cases m0
        case call r _ _ _ _ _ => exact st _ _ _ (by rintro rfl rfl; exact hreq _ rfl rfl)
        case register r _ _ => exact st _ _ _ (by rintro rfl rfl; exact hreq _ rfl rfl)
        case unregister r _ => exact st _ _ _ (by rintro rfl rfl; exact hreq _ rfl rfl)
        case subscribe r _ _ => exact st _ _ _ (by rintro rfl rfl; exact hreq _ rfl rfl)
        case publish r o _ _ _ =>
          simp only [send]; split
          · exact st _ _ _ (by rintro rfl rfl; exact hreq _ rfl rfl)
          · rfl
        case unsubscribe r g =>
          simp only [send, Prog.run]
          cases s .subscriptions g
          · rfl
          · exact st _ _ _ (by rintro rfl rfl; exact hreq _ rfl rfl)
        case yield r o _ _ _ => simp only [send]; split <;> simp [Prog.run, put_apply, hti]
        case error t' r _ _ _ _ => simp only [send]; split <;> simp [Prog.run, put_apply, hti]
        all_goals rfl
    rw [accepts_tab, accepts_tab]
    have kr : ∀ g, ((send d m0).run s).1 .registrations g = s .registrations g := fun g =>
      key _ _ (by simp) (fun n _ => (errorTab_regs n).1)
    have ks : ∀ g, ((send d m0).run s).1 .subscriptions g = s .subscriptions g := fun g =>
      key _ _ (by simp) (fun n _ => (errorTab_regs n).2.1)
    have ka : ∀ n r t, answers m = some (n, r) → errorTab n = some t → t ≠ .invocation →
        ((send d m0).run s).1 t r = s t r := by
      intro n r t ha ht hti
      refine key t r hti ?_
      intro n' hreq ht'
      have : n = n' := errorTab_inj ht ht'
      subst this
      rcases hne with h | h
      · rw [h] at ha; cases ha
      · exact h (ha.trans hreq.symm)
    cases m
    case error t r _ _ _ _ =>
      simp only
      constructor
      · rintro ⟨tab, h1, h2⟩; exact ⟨tab, h1, by rw [ka t r tab rfl h1 (fun e => (errorTab_regs t).2.2 (e ▸ h1))] at h2; exact h2⟩
      · rintro ⟨tab, h1, h2⟩; exact ⟨tab, h1, by rw [ka t r tab rfl h1 (fun e => (errorTab_regs t).2.2 (e ▸ h1))]; exact h2⟩
    case result => simp only; rw [ka _ _ .call rfl rfl (by simp)]
    case registered => simp only; rw [ka _ _ .register rfl rfl (by simp)]
    case published => simp only; rw [ka _ _ .publish rfl rfl (by simp)]
    case subscribed => simp only; rw [ka _ _ .subscribe rfl rfl (by simp)]
    case unregistered => simp only [kr]; rw [ka _ _ .unregister rfl rfl (by simp)]
    case unsubscribed => simp only [ks]; rw [ka _ _ .unsubscribe rfl rfl (by simp)]
    case invocation => simp only [kr]
    case event => simp only [ks]
    all_goals exact Iff.rfl

/-- For example: sending REGISTER 1 does not make a RESULT 1 or an UNREGISTERED 1 acceptable. -/
example : family (.register 1 none []) ≠ family (.result 1 none none none .none) ∧
    answers (.unregistered 1) ≠ request (.register 1 none []) := by decide

/-! ### Only confirmed subscriptions and registrations -/

theorem subscribed_iff (g : Nat) (h : List Event) : subscribed g h = true →
    ∃ later r earlier, h = later ++ ⟨.recv (.subscribed r g), true⟩ :: earlier ∧
      ∀ l1 q l2, later = l1 ++ ⟨.recv (.unsubscribed q), true⟩ :: l2 →
        unsubscribeAsked q (l2 ++ ⟨.recv (.subscribed r g), true⟩ :: earlier) ≠ some g := by
  induction h with
  | nil => simp [subscribed]
  | cons e h ih =>
    intro hs
    have keep : (∀ q, e = ⟨.recv (.unsubscribed q), true⟩ → unsubscribeAsked q h ≠ some g) → subscribed g h = true →
        ∃ later r earlier, e :: h = later ++ ⟨.recv (.subscribed r g), true⟩ :: earlier ∧
          ∀ l1 q l2, later = l1 ++ ⟨.recv (.unsubscribed q), true⟩ :: l2 →
            unsubscribeAsked q (l2 ++ ⟨.recv (.subscribed r g), true⟩ :: earlier) ≠ some g := by
      intro he hs
      obtain ⟨later, r, earlier, rfl, hl⟩ := ih hs
      refine ⟨e :: later, r, earlier, rfl, ?_⟩
      intro l1 q l2 hq
      cases l1 with
      | nil => simp only [List.nil_append, List.cons.injEq] at hq; obtain ⟨h1, rfl⟩ := hq; exact he q h1
      | cons y l1 => simp only [List.cons_append, List.cons.injEq] at hq; exact hl l1 q l2 hq.2
    rcases e with ⟨op, ok⟩
    cases ok
    · exact keep (by simp) (by rcases op with ⟨d, m⟩ | m <;> cases m <;> simpa [subscribed] using hs)
    · rcases op with ⟨d, m⟩ | m
      · exact keep (by simp) (by cases m <;> simpa [subscribed] using hs)
      · cases m
        case subscribed r g' =>
          simp only [subscribed, Bool.or_eq_true, beq_iff_eq] at hs
          rcases hs with rfl | hs
          · exact ⟨[], r, h, rfl, by simp⟩
          · exact keep (by simp) hs
        case unsubscribed q =>
          simp only [subscribed, Bool.and_eq_true, bne_iff_ne] at hs
          exact keep (by simp; exact hs.1) hs.2
        all_goals exact keep (by simp) (by simpa [subscribed] using hs)

theorem registered_iff (g : Nat) (h : List Event) : registered g h = true →
    ∃ later r earlier, h = later ++ ⟨.recv (.registered r g), true⟩ :: earlier ∧
      ∀ l1 q l2, later = l1 ++ ⟨.recv (.unregistered q), true⟩ :: l2 →
        unregisterAsked q (l2 ++ ⟨.recv (.registered r g), true⟩ :: earlier) ≠ some g := by
  induction h with
  | nil => simp [registered]
  | cons e h ih =>
    intro hs
    have keep : (∀ q, e = ⟨.recv (.unregistered q), true⟩ → unregisterAsked q h ≠ some g) → registered g h = true →
        ∃ later r earlier, e :: h = later ++ ⟨.recv (.registered r g), true⟩ :: earlier ∧
          ∀ l1 q l2, later = l1 ++ ⟨.recv (.unregistered q), true⟩ :: l2 →
            unregisterAsked q (l2 ++ ⟨.recv (.registered r g), true⟩ :: earlier) ≠ some g := by
      intro he hs
      obtain ⟨later, r, earlier, rfl, hl⟩ := ih hs
      refine ⟨e :: later, r, earlier, rfl, ?_⟩
      intro l1 q l2 hq
      cases l1 with
      | nil => simp only [List.nil_append, List.cons.injEq] at hq; obtain ⟨h1, rfl⟩ := hq; exact he q h1
      | cons y l1 => simp only [List.cons_append, List.cons.injEq] at hq; exact hl l1 q l2 hq.2
    rcases e with ⟨op, ok⟩
    cases ok
    · exact keep (by simp) (by rcases op with ⟨d, m⟩ | m <;> cases m <;> simpa [registered] using hs)
    · rcases op with ⟨d, m⟩ | m
      · exact keep (by simp) (by cases m <;> simpa [registered] using hs)
      · cases m
        case registered r g' =>
          simp only [registered, Bool.or_eq_true, beq_iff_eq] at hs
          rcases hs with rfl | hs
          · exact ⟨[], r, h, rfl, by simp⟩
          · exact keep (by simp) hs
        case unregistered q =>
          simp only [registered, Bool.and_eq_true, bne_iff_ne] at hs
          exact keep (by simp; exact hs.1) hs.2
        all_goals exact keep (by simp) (by simpa [registered] using hs)

/-- **C50** In every history: if an EVENT (INVOCATION) is accepted, then a SUBSCRIBED (REGISTERED) with that ID was accepted
before, and since then no accepted UNSUBSCRIBED (UNREGISTERED) answered a request naming that ID. -/
theorem C50_only_confirmed {h : List Event} {s : State} (hh : Hist h s) (g : Nat) :
    (∀ p d a k, Accepts s (.event g p d a k) →
      ∃ later r earlier, h = later ++ ⟨.recv (.subscribed r g), true⟩ :: earlier ∧
        ∀ l1 q l2, later = l1 ++ ⟨.recv (.unsubscribed q), true⟩ :: l2 →
          unsubscribeAsked q (l2 ++ ⟨.recv (.subscribed r g), true⟩ :: earlier) ≠ some g) ∧
    (∀ i d a k b, Accepts s (.invocation i g d a k b) →
      ∃ later r earlier, h = later ++ ⟨.recv (.registered r g), true⟩ :: earlier ∧
        ∀ l1 q l2, later = l1 ++ ⟨.recv (.unregistered q), true⟩ :: l2 →
          unregisterAsked q (l2 ++ ⟨.recv (.registered r g), true⟩ :: earlier) ≠ some g) := by
  refine ⟨fun p d a k ha => ?_, fun i d a k b ha => ?_⟩
  · exact subscribed_iff g h (((C43_accepts_partial hh 0 g).2.2.2.2.2.2.1 p d a k).1 ha)
  · exact registered_iff g h (((C43_accepts_partial hh i g).2.2.2.2.2.2.2 d a k b).1 ha)

/-- Subscribed, unsubscribed, subscribed again: the event is accepted. -/
example : ∃ h s, Hist h s ∧ h.length = 6 ∧ Accepts s (.event 9 1 none none none) :=
  ⟨_, _, .step (.recv (.subscribed 2 9)) (.step (.send (.ok []) (.subscribe 2 none [])) (.step (.recv (.unsubscribed 5))
    (.step (.send (.ok []) (.unsubscribe 5 9)) (.step (.recv (.subscribed 1 9)) (.step (.send (.ok []) (.subscribe 1 none []))
    .new))))), rfl, rfl⟩

end Wamp.Session
