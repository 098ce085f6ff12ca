import Verif.Spec.System
/-!
# A client that works off the messages under way to it
-/
namespace Wamp.System
open Session

/-- The tables after receiving a message. -/
def next (st : Session.State) (m : Msg) : Session.State := ((recv m).run st).1

/-- The tables after receiving messages in order. -/
def after (st : Session.State) : List Msg → Session.State
  | [] => st
  | m :: q => after (next st m) q

/-- When messages are received in order, those with property `P` are accepted. -/
def AllAcc (P : Msg → Prop) (st : Session.State) : List Msg → Prop
  | [] => True
  | m :: q => (P m → Accepts st m) ∧ AllAcc P (next st m) q

theorem after_append (st : Session.State) (q q' : List Msg) : after st (q ++ q') = after (after st q) q' := by
  induction q generalizing st with
  | nil => rfl
  | cons m q ih => exact ih _

theorem allAcc_append {P : Msg → Prop} (st : Session.State) (q q' : List Msg) :
    AllAcc P st (q ++ q') ↔ AllAcc P st q ∧ AllAcc P (after st q) q' := by
  induction q generalizing st with
  | nil => simp [AllAcc, after]
  | cons m q ih => simp only [List.cons_append, AllAcc, after, ih, and_assoc]

/-- The number of the requests that wait in a table. -/
def kind : Tab → Option Nat
  | .call => some 48
  | .register => some 64
  | .unregister => some 66
  | .publish => some 16
  | .subscribe => some 32
  | .unsubscribe => some 34
  | _ => none

/-- The tables for publishing and subscribing. -/
def brokerTab : Tab → Prop
  | .publish | .subscribe | .subscriptions | .unsubscribe => True
  | _ => False

/-- The tables for calling and registering, except for the invocations. -/
def dealerTab : Tab → Prop
  | .call | .register | .registrations | .unregister => True
  | _ => False

theorem put_same (st : Session.State) (t : Tab) (m : FMap Nat Nat) : st.put t m t = m := by simp [State.put]
theorem put_other (st : Session.State) {t t' : Tab} (m : FMap Nat Nat) (h : t' ≠ t) : st.put t m t' = st t' := by simp [State.put, h]

/-- A request that is not answered stays. -/
theorem next_keep {st : Session.State} {m : Msg} {t : Tab} {n k : Nat} (hk : kind t = some n) (ha : answers m ≠ some (n, k)) :
    next st m t k = st t k := by
  cases m <;> simp only [next, recv, Prog.run]
  case result r d _ _ _ =>
    cases st .call r <;> simp only [Prog.run]
    split <;> simp only [Prog.run]
    have hne : t = .call → k ≠ r := by rintro rfl rfl; cases hk; exact ha rfl
    by_cases h : t = .call
    · subst h; simp [State.put, FMap.del_apply, hne rfl]
    · simp [State.put, h]
  case registered r g =>
    cases st .register r <;> simp only [Prog.run] <;> cases t <;> simp_all [kind, answers, State.put, FMap.del_apply, eq_comm]
  case unregistered r =>
    cases st .unregister r <;> simp only [Prog.run]
    rename_i g
    cases st .registrations g <;> simp only [Prog.run] <;> cases t <;> simp_all [kind, State.put]
  case invocation r g _ _ _ _ =>
    cases st .registrations g <;> simp only [Prog.run]
    cases t <;> simp_all [kind, State.put]
  case published r _ =>
    cases st .publish r <;> simp only [Prog.run] <;> cases t <;> simp_all [kind, answers, State.put, FMap.del_apply, eq_comm]
  case subscribed r g =>
    cases st .subscribe r <;> simp only [Prog.run]
    cases t <;> simp_all [kind, State.put]
  case unsubscribed r =>
    cases st .unsubscribe r <;> simp only [Prog.run]
    rename_i g
    cases st .subscriptions g <;> simp only [Prog.run] <;> cases t <;> simp_all [kind, State.put]
  case event g _ _ _ _ =>
    cases st .subscriptions g <;> simp only [Prog.run]
  case error tt r _ _ _ _ =>
    cases he : errorTab tt with
    | none => simp only [Prog.run]
    | some tab =>
      simp only [Prog.run]
      have : kind tab = some tt := by
        unfold errorTab at he
        split at he <;> simp at he <;> subst he <;> rfl
      have hne : t = tab → r ≠ k := by
        rintro rfl rfl
        rw [hk] at this
        cases this
        exact ha rfl
      cases st tab r <;> simp only [Prog.run] <;> by_cases hh : t = tab
      · subst hh; simp [State.put, FMap.del_apply, Ne.symm (hne rfl)]
      · simp [State.put, hh]
      · subst hh; simp [State.put, FMap.del_apply, Ne.symm (hne rfl)]
      · simp [State.put, hh]

theorem after_keep {st : Session.State} {q : List Msg} {t : Tab} {n k : Nat} (hk : kind t = some n)
    (ha : ∀ m ∈ q, answers m ≠ some (n, k)) : after st q t k = st t k := by
  induction q generalizing st with
  | nil => rfl
  | cons m q ih =>
    rw [after, ih fun m' hm' => ha m' (List.mem_cons_of_mem _ hm'), next_keep hk (ha m (List.mem_cons_self ..))]

/-- Entries that do not concern a message do not matter for it (publishing and subscribing). -/
theorem next_sameB {st st1 : Session.State} {X : Tab → Nat → Prop} {m : Msg} (hm : fromBroker m ∨ fromDealer m)
    (hX : ∀ t k, X t k → ∃ n, kind t = some n ∧ (fromBroker m → answers m ≠ some (n, k)))
    (hs : ∀ t k, brokerTab t → ¬X t k → st t k = st1 t k) :
    (∀ t k, brokerTab t → ¬X t k → next st m t k = next st1 m t k) ∧ (fromBroker m → (Accepts st m ↔ Accepts st1 m)) := by
  have hsub : ∀ g, st .subscriptions g = st1 .subscriptions g := fun g =>
    hs _ g trivial fun hx => by obtain ⟨n, h, -⟩ := hX _ _ hx; simp [kind] at h
  cases m <;> simp only [fromBroker, fromDealer, false_or, or_false, or_self] at hm
  case published r n =>
    have hr : st .publish r = st1 .publish r := hs _ _ trivial fun hx => by
      obtain ⟨n, h, h'⟩ := hX _ _ hx
      cases h
      exact h' trivial rfl
    simp only [next, Accepts, recv, Prog.run, hr, fromBroker, true_implies]
    constructor
    · intro t k ht hk
      have := hs t k ht hk
      cases st1 .publish r <;> simp only [Prog.run] <;> by_cases h : t = .publish
      all_goals first | (subst h; simp only [State.put, if_true, FMap.del_apply]; split <;> simp [this]) | simp [State.put, h, this]
    · cases st1 .publish r <;> simp [Prog.run]
  case subscribed r g =>
    have hr : st .subscribe r = st1 .subscribe r := hs _ _ trivial fun hx => by
      obtain ⟨n, h, h'⟩ := hX _ _ hx
      cases h
      exact h' trivial rfl
    simp only [next, Accepts, recv, Prog.run, hr, fromBroker, true_implies]
    constructor
    · intro t k ht hk
      have := hs t k ht hk
      cases st1 .subscribe r <;> simp only [Prog.run]
      · exact this
      · by_cases h : t = .subscriptions
        · subst h; simp only [State.put, if_true, FMap.set_apply]; split <;> simp [this]
        · simp [State.put, h, this]
    · cases st1 .subscribe r <;> simp [Prog.run]
  case unsubscribed r =>
    have hr : st .unsubscribe r = st1 .unsubscribe r := hs _ _ trivial fun hx => by
      obtain ⟨n, h, h'⟩ := hX _ _ hx
      cases h
      exact h' trivial rfl
    simp only [next, Accepts, recv, Prog.run, hr, fromBroker, true_implies]
    cases st1 .unsubscribe r with
    | none => simp only [Prog.run]; exact ⟨fun t k ht hk => hs t k ht hk, trivial⟩
    | some g =>
      simp only [Prog.run, hsub]
      constructor
      · intro t k ht hk
        have := hs t k ht hk
        cases st1 .subscriptions g <;> simp only [Prog.run] <;> by_cases h : t = .subscriptions
        all_goals first | (subst h; simp only [State.put, if_true, FMap.del_apply]; split <;> simp [this]) | simp [State.put, h, this]
      · cases st1 .subscriptions g <;> simp [Prog.run]
  case event g _ _ _ _ =>
    simp only [next, Accepts, recv, Prog.run, hsub, fromBroker, true_implies]
    constructor
    · intro t k ht hk
      have := hs t k ht hk
      cases st1 .subscriptions g <;> simpa only [Prog.run] using this
    · cases st1 .subscriptions g <;> simp [Prog.run]
  all_goals
    refine ⟨fun t k ht hk => ?_, fun h => h.elim⟩
    have := hs t k ht hk
    simp only [next, recv, Prog.run]
  case result r d _ _ _ =>
    cases st .call r <;> cases st1 .call r <;> simp only [Prog.run] <;> (try split) <;> (try simp only [Prog.run]) <;>
      first | exact this | (cases t <;> first | exact this | exact ht.elim)
  case registered r d =>
    cases st .register r <;> cases st1 .register r <;> simp only [Prog.run] <;> cases t <;> first | exact this | exact ht.elim
  case unregistered r =>
    cases st .unregister r <;> cases st1 .unregister r <;> simp only [Prog.run]
    · exact this
    · rename_i g
      cases st1 .registrations g <;> simp only [Prog.run] <;> cases t <;> first | exact this | exact ht.elim
    · rename_i g
      cases st .registrations g <;> simp only [Prog.run] <;> cases t <;> first | exact this | exact ht.elim
    · rename_i g g'
      cases st .registrations g <;> cases st1 .registrations g' <;> simp only [Prog.run] <;> cases t <;> first | exact this | exact ht.elim
  case invocation r g _ _ _ _ =>
    cases st .registrations g <;> cases st1 .registrations g <;> simp only [Prog.run] <;> cases t <;> first | exact this | exact ht.elim
  case error tt r _ _ _ _ =>
    rcases hm with rfl | rfl <;> simp only [errorTab, Prog.run]
    · cases st .call r <;> cases st1 .call r <;> simp only [Prog.run] <;> cases t <;> first | exact this | exact ht.elim
    · cases st .register r <;> cases st1 .register r <;> simp only [Prog.run] <;> cases t <;> first | exact this | exact ht.elim

end Wamp.System
