import Verif.Model.RouterText
import Verif.Spec.RouterText
import Verif.Props.Broker
import Verif.Lemmas.DealerCalls
import Verif.Props.DealerCalls
/-!
# C155: the errors of brokers and dealers are true
-/
namespace Wamp.RouterText
open Spec.RouterText
variable {w : Str → Str → Bool}

private theorem typeName_eq (m : Msg) : typeName m = str "*messages." ++ str (goName m.kind) := by
  cases m <;> (simp only [typeName, Msg.kind, goName]; decide +kernel)

private theorem broker_unexpected (m : Msg) : str "broker: received unexpected message of type " ++ typeName m =
    str "broker: received unexpected message of type *messages." ++ str (goName m.kind) := by
  rw [typeName_eq, ← List.append_assoc]
  congr 1

private theorem dealer_unexpected (m : Msg) : str "dealer: received unexpected message of type " ++ typeName m =
    str "dealer: received unexpected message of type *messages." ++ str (goName m.kind) := by
  rw [typeName_eq, ← List.append_assoc]
  congr 1

private theorem dec_eq (n : Nat) : dec n = num n := by
  simp only [dec, num]

section
open Wamp.Broker

private theorem broker_remove_no_err (s : Nat) : ∀ (as : List Nat) (b : State), removeLoop s b as ≠ .err := by
  intro as
  induction as with
  | nil => intro b h; cases h
  | cons a as ih =>
    intro b h
    simp only [removeLoop, removeStep] at h
    split at h
    · cases h
    · exact ih _ h

private theorem broker_err (b : State) (op : Op) : (step w b op).2 = .err ↔ ∃ t, brokerError b op = some t := by
  cases op with
  | add d =>
    simp only [step, addSession, brokerError]
    split <;> simp
  | remove s o =>
    simp only [step, removeSession, brokerError]
    cases hb : b.bySession s with
    | none => simp
    | some m =>
      simp only []
      cases hr : removeLoop s { b with bySession := b.bySession.del s } ((arrange o m.keys).filterMap m.get) with
      | ok b' => simp
      | err => exact absurd hr (broker_remove_no_err s _ _)
      | panic => simp
  | has t => simp [step, brokerError]
  | disclose on => simp [step, brokerError]
  | receive s m =>
    cases m <;> simp only [step, Broker.receive, brokerError] <;> try simp
    case subscribe q o t =>
      simp only [subscribe]
      cases b.bySession s with
      | none => simp
      | some m => simp only []; cases b.byTopic t <;> simp
    case unsubscribe q i =>
      simp only [unsubscribe]
      cases b.bySession s with
      | none => simp
      | some m => simp only []; cases m.get i <;> simp
  | publish s q o t a k wo so =>
    simp only [step, publish, brokerError]
    cases b.bySession s with
    | none => simp
    | some m =>
      simp only []
      cases lookup w wo b t with
      | none => simp
      | some p =>
        simp only []
        split
        · simp
        · have : eventDetails b s t ≠ .err := by
            simp only [eventDetails]
            split
            · split <;> simp
            · simp
          cases he : eventDetails b s t with
          | ok d => simp
          | err => exact absurd he this
          | panic => simp

/-- **C155** (brokers). After every history with fewer than 2^53 calls: a call returns an error exactly if `brokerError` has a text for it, and the texts are
exactly those that state a fact: what the error says about sessions and subscriptions is so, and whenever it is so there is that error. -/
theorem C155_broker {h : List Event} {b : State} (hh : Hist w h b) (hlen : h.length < 2 ^ 53) (op : Op) :
    ((step w b op).2 = .err ↔ ∃ t, brokerError b op = some t) ∧ ∀ t, brokerError b op = some t ↔ BrokerSays h op t := by
  refine ⟨broker_err b op, ?_⟩
  have hi := hist_inv hh (Nat.le_of_lt hlen)
  have att : ∀ s, attached h s ↔ ∃ m, b.bySession s = some m := by
    intro s
    simp only [attached, ← hi.bys s]
    exact Option.isSome_iff_exists
  have natt : ∀ s, ¬attached h s ↔ b.bySession s = none := by
    intro s
    rw [att]
    cases b.bySession s <;> simp
  intro t
  constructor
  · intro ht
    cases op with
    | add d =>
      simp only [brokerError] at ht
      split at ht
      · rename_i hs
        cases ht
        exact .add d ((att _).2 (Option.isSome_iff_exists.1 hs))
      · cases ht
    | remove s o =>
      simp only [brokerError] at ht
      split at ht
      · rename_i hs; cases ht; exact .remove s o ((natt s).2 hs)
      · cases ht
    | has t => simp [brokerError] at ht
    | disclose on => simp [brokerError] at ht
    | receive s m =>
      have oth : m.kind ≠ .subscribe → m.kind ≠ .unsubscribe → m.kind ≠ .error →
          t = str "broker: received unexpected message of type " ++ typeName m → BrokerSays h (.receive s m) t := by
        intro h1 h2 h3 e
        rw [e, broker_unexpected]
        exact .other s m h1 h2 h3
      cases m <;> simp only [brokerError] at ht
      case subscribe q o u =>
        split at ht
        · rename_i hs; cases ht; rw [dec_eq]; exact .subscribe s q o u ((natt s).2 hs)
        · cases ht
      case unsubscribe q i =>
        split at ht
        · rename_i hs; cases ht; rw [dec_eq]; exact .unsubscribe s q i ((natt s).2 hs)
        · rename_i m hs
          split at ht
          · rename_i hg
            cases ht
            rw [dec_eq]
            refine .nothing s q i ((att s).2 ⟨m, hs⟩) ?_
            intro u hc
            obtain ⟨a, h1, h2, h3⟩ := (hi.cur s u i).1 hc
            obtain ⟨m', h4, h5⟩ := hi.ses' u a s h1 h3
            rw [hs] at h4
            cases h4
            rw [h2, hg] at h5
            cases h5
          · cases ht
      case error => cases ht; exact .error ..
      all_goals exact oth (by simp [Msg.kind]) (by simp [Msg.kind]) (by simp [Msg.kind]) (Option.some.inj ht).symm
    | publish s q o u a k wo so =>
      simp only [brokerError] at ht
      split at ht
      · rename_i hs; cases ht; rw [dec_eq]; exact .publish s q o u a k wo so ((natt s).2 hs)
      · cases ht
  · intro hs
    cases hs with
    | add d ha => simp only [brokerError]; rw [if_pos (Option.isSome_iff_exists.2 ((att _).1 ha))]; rfl
    | remove s o ha => simp only [brokerError, (natt s).1 ha]; rfl
    | subscribe s q o u ha => simp only [brokerError, (natt s).1 ha, dec_eq]
    | unsubscribe s q i ha => simp only [brokerError, (natt s).1 ha, dec_eq]
    | nothing s q i ha hc =>
      obtain ⟨m, hm⟩ := (att s).1 ha
      have : m.get i = none := by
        cases hg : m.get i with
        | none => rfl
        | some a =>
          obtain ⟨h1, h2, h3⟩ := hi.ses s m i a hm hg
          exact absurd ((hi.cur s _ i).2 ⟨a, h1, h2, h3⟩) (hc _)
      simp only [brokerError, hm, this, dec_eq]
    | error => rfl
    | other s m h1 h2 h3 =>
      cases m <;> simp only [brokerError]
      case subscribe => exact absurd rfl h1
      case unsubscribe => exact absurd rfl h2
      case error => exact absurd rfl h3
      all_goals exact congrArg some (broker_unexpected _)
    | publish s q o u a k wo so ha => simp only [brokerError, (natt s).1 ha, dec_eq]

/-- `AddSession` and `RemoveSession` show the session ID in binary: the error about session 5 speaks of session 101. -/
theorem C155_binary_refuted (b : State) (d : SessionDetails) (hd : d.id = 5) (t : Str) (ht : brokerError b (.add d) = some t) :
    t = str "broker: cannot add session 101, it already exists" := by
  simp only [brokerError, hd] at ht
  split at ht
  · have : str "broker: cannot add session " ++ bits 5 ++ str ", it already exists" = str "broker: cannot add session 101, it already exists" := by
      decide +kernel
    rw [← this]
    exact (Option.some.inj ht).symm
  · cases ht

/-- UNSUBSCRIBE of somebody else's subscription: the error calls the subscription non-existent, although another session holds it. -/
theorem C155_subscription_refuted : ∃ h b, Hist w h b ∧ current h 1 (str "t") = some 1 ∧
    brokerError b (.receive 2 (.unsubscribe 9 1)) = some (str "broker: cannot unsubscribe non-existent subscription 1") :=
  ⟨_, _, hist_exec .new [.add (who 1), .add (who 2), sub 1 "t"], rfl, rfl⟩

/-- The error for a session that is not there. -/
example : brokerError Broker.init (.publish 5 1 none (str "t") none none [] []) =
    some (str "broker: cannot publish, session 5 doesn't exist") := by decide +kernel

example : ∃ (h : List Event) (b : State), Hist w h b ∧ h.length < 2 ^ 53 ∧ ∃ t, brokerError b (.add (who 5)) = some t :=
  ⟨_, _, hist_exec .new [.add (who 5)], Nat.lt_of_le_of_lt (Nat.le_refl 1) (by decide), _, rfl⟩

end

section
open Wamp.Dealer

private theorem dealer_err (b : State) (op : Op) : (step w b op).2 = .err ↔ ∃ t, dealerError w b op = some t := by
  cases op with
  | add d =>
    simp only [step, addSession, dealerError]
    split <;> simp
  | remove s o =>
    simp only [step, removeSession, dealerError]
    cases hb : b.sessions s with
    | none => simp
    | some m =>
      simp only []
      cases hr : removeLoop s b ((arrange o ((b.bySession s).getD []).keys).filterMap ((b.bySession s).getD []).get) with
      | ok b' => simp
      | err => exact absurd hr removeLoop_no_err
      | panic => simp
  | has t => simp [step, dealerError]
  | disclose on => simp [step, dealerError]
  | receive s m order rnd =>
    cases m <;> simp only [step, Dealer.receive, dealerError]
    case call q o p a k bin =>
      simp only [call]
      cases lookup w order b p with
      | none => simp
      | some x =>
        simp only []
        by_cases he : (b.heap x).registrants.isEmpty = true
        · rw [if_pos he, if_pos he]; simp
        · rw [if_neg he, if_neg he]
          cases hp : pick (b.heap x) rnd with
          | err => exact absurd hp (pick_no_err _ _)
          | panic => simp
          | ok y =>
            rcases y with ⟨callee, nc⟩
            simp only []
            by_cases hd : (b.details && (b.sessions s).isNone) = true
            · rw [if_pos hd, if_pos hd]; simp
            · rw [if_neg hd, if_neg hd]
              cases b.sessions callee with
              | none => simp
              | some c => simp only []; split <;> simp
    case yield i o a k bin =>
      simp only [yield]
      cases b.pending.get i with
      | none => simp
      | some p =>
        simp only []
        cases b.sessions p.callerID with
        | none => simp
        | some c => simp only []; split <;> simp
    case register q o p =>
      simp only [register]
      cases b.bySession s with
      | none => simp
      | some m =>
        simp only []
        cases b.byProc p with
        | none => simp
        | some a => simp only []; split <;> simp
    case unregister q i =>
      simp only [unregister]
      cases b.bySession s with
      | none => simp
      | some m =>
        simp only []
        by_cases he : m.isEmpty = true
        · rw [if_pos he, if_pos he]; simp
        · rw [if_neg he, if_neg he]; cases m.get i <;> simp
    case error t i d u a k =>
      simp only [error]
      by_cases ht : t ≠ 68
      · simp [ht]
      · have ht : t = 68 := Classical.not_not.1 ht
        subst ht
        cases b.pending.get i <;> simp
    all_goals simp

/-- Who holds a registration has an entry for it. -/
private theorem holds_entry {h : List Event} {b : State} (hh : Hist w h b) : ∀ s p i, holds h s p i → ∃ m a, b.bySession s = some m ∧ m.get i = some a := by
  induction hh with
  | new => intro s p i h; cases h
  | @step h b op hh hnp ih =>
    have hS := hist_sinv hh
    intro s p i hold
    cases op with
    | add d =>
      have hold' : holds h s p i := by
        revert hold; cases (step w b (.add d)).2 <;> exact id
      obtain ⟨m, a, h1, h2⟩ := ih s p i hold'
      simp only [step, addSession]
      split
      · exact ⟨m, a, h1, h2⟩
      · rename_i hn
        have hne : d.id ≠ s := by
          intro e
          have := hS.bys s
          rw [h1, ← hS.sess s, ← e] at this
          exact hn this.symm
        refine ⟨m, a, ?_, h2⟩
        simp only [FMap.set_apply]
        rw [if_neg (fun e => hne e.symm)]
        exact h1
    | remove s' o =>
      have hcase : (step w b (.remove s' o)).2 = .err ∨ ∃ u, (step w b (.remove s' o)).2 = .ok u := by
        cases hr : (step w b (.remove s' o)).2 with
        | ok u => exact .inr ⟨u, rfl⟩
        | err => exact .inl rfl
        | panic => exact absurd hr hnp
      rcases hcase with he | ⟨u, he⟩
      · rw [he] at hold
        obtain ⟨m, a, h1, h2⟩ := ih s p i hold
        refine ⟨m, a, ?_, h2⟩
        have hn : b.sessions s' = none := by
          obtain ⟨t, ht⟩ := (dealer_err b _).1 he
          simp only [dealerError] at ht
          split at ht
          · assumption
          · cases ht
        simp only [step, removeSession, hn]
        exact h1
      · rw [he] at hold
        obtain ⟨hne, hold⟩ : s' ≠ s ∧ holds h s p i := hold
        obtain ⟨m, a, h1, h2⟩ := ih s p i hold
        refine ⟨m, a, ?_, h2⟩
        simp only [step, removeSession] at he ⊢
        cases hb : b.sessions s' with
        | none => simp [hb] at he
        | some x =>
          simp only [hb] at he ⊢
          cases hr : removeLoop s' b ((arrange o ((b.bySession s').getD []).keys).filterMap ((b.bySession s').getD []).get) with
          | err => simp [hr] at he
          | panic => simp [hr] at he
          | ok b' =>
            simp only [FMap.del_apply]
            rw [if_neg (fun e => hne e.symm), (removeLoop_frame hr).2.2]
            exact h1
    | has t => exact ih s p i (by revert hold; cases (step w b (.has t)).2 <;> exact id)
    | disclose on => exact ih s p i (by revert hold; cases (step w b (.disclose on)).2 <;> exact id)
    | receive s' m order rnd =>
      by_cases hreg : ∃ q o p', m = .register q o p'
      · obtain ⟨q, o, p', rfl⟩ := hreg
        simp only [step, Dealer.receive] at hold ⊢
        have done : ∀ (m0 : AMap Nat Nat) (j x : Nat), b.bySession s' = some m0 →
            ((s' = s ∧ p' = p ∧ j = i) ∨ holds h s p i) → ∃ m a, (b.bySession.set s' (m0.set j x)) s = some m ∧ m.get i = some a := by
          intro m0 j x hm hc
          rcases hc with ⟨rfl, -, rfl⟩ | hc
          · exact ⟨_, x, FMap.set_same .., by simp [AMap.get_set]⟩
          · obtain ⟨m1, a1, h1, h2⟩ := ih s p i hc
            by_cases hss : s = s'
            · subst hss
              rw [hm] at h1
              cases h1
              by_cases hij : i = j
              · exact ⟨_, x, FMap.set_same .., by rw [AMap.get_set, if_pos hij]⟩
              · exact ⟨_, a1, FMap.set_same .., by rw [AMap.get_set, if_neg hij]; exact h2⟩
            · exact ⟨m1, a1, by simp only [FMap.set_apply]; rw [if_neg hss]; exact h1, h2⟩
        rcases register_cases b s' q o p' with ⟨_, he⟩ | ⟨m0, hm, ⟨a, _, _, he⟩ | ⟨a, _, _, he⟩ | ⟨_, he⟩⟩
        · rw [he] at hold ⊢; exact ih s p i hold
        · rw [he] at hold ⊢; exact ih s p i hold
        · rw [he] at hold ⊢; exact done m0 _ _ hm hold
        · rw [he] at hold ⊢; exact done m0 _ _ hm hold
      · by_cases hun : ∃ q j, m = .unregister q j
        · obtain ⟨q, j, rfl⟩ := hun
          simp only [step, Dealer.receive] at hold hnp ⊢
          simp only [unregister] at hold hnp ⊢
          cases hm : b.bySession s' with
          | none => simp only [hm] at hold ⊢; exact ih s p i hold
          | some m0 =>
            simp only [hm] at hold hnp ⊢
            by_cases hem : m0.isEmpty = true
            · rw [if_pos hem] at hold ⊢; exact ih s p i hold
            · rw [if_neg hem] at hold hnp ⊢
              cases hg : m0.get j with
              | none => simp [hg] at hnp
              | some a =>
                simp only [hg] at hold ⊢
                obtain ⟨hne, hold⟩ : ¬(s' = s ∧ j = i) ∧ holds h s p i := hold
                obtain ⟨m1, a1, h1, h2⟩ := ih s p i hold
                split
                · by_cases hss : s = s'
                  · subst hss
                    rw [hm] at h1
                    cases h1
                    refine ⟨_, a1, FMap.set_same .., ?_⟩
                    rw [AMap.get_del, if_neg (fun e => hne ⟨rfl, e.symm⟩)]
                    exact h2
                  · exact ⟨m1, a1, by simp only [FMap.set_apply]; rw [if_neg hss]; exact h1, h2⟩
                · exact ⟨m1, a1, h1, h2⟩
        · have hold' : holds h s p i := by
            revert hold
            cases m <;> first
              | exact absurd ⟨_, _, _, rfl⟩ hreg
              | exact absurd ⟨_, _, rfl⟩ hun
              | (cases (step w b (.receive s' _ order rnd)).2 <;> exact id)
          obtain ⟨m1, a1, h1, h2⟩ := ih s p i hold'
          refine ⟨m1, a1, ?_, h2⟩
          have : (step w b (.receive s' m order rnd)).1.bySession = b.bySession := by
            cases m <;> simp only [step, Dealer.receive]
            case call q o p' a k bin =>
              rcases call_cases w b s' q o p' a k bin order rnd with ⟨_, e⟩ | ⟨e, _⟩ | ⟨a', c, nc, inv, _, _, _, h4, _⟩
              · rw [e]
              · simp only [step, Dealer.receive, e] at hnp
                exact absurd rfl hnp
              · rcases h4 with ⟨_, _, e⟩ | ⟨_, _, e⟩ <;> rw [e]
            case yield j o a k bin =>
              rcases yield_cases b j o a k bin with ⟨_, e⟩ | ⟨p', _, e, _⟩
              · rw [e]
              · rw [e]; split <;> rfl
            case register q o p' => exact absurd ⟨_, _, _, rfl⟩ hreg
            case unregister q j => exact absurd ⟨_, _, rfl⟩ hun
            case error t j d u a k =>
              rcases error_cases b t j d u a k with ⟨_, e⟩ | ⟨_, p', _, e⟩ <;> rw [e]
          rw [this]
          exact h1

private theorem pick_mem {g : Reg} {rnd c n : Nat} (h : pick g rnd = .ok (c, n)) : c ∈ g.callees := by
  have mem : ∀ k, k < g.callees.length → g.callees.getD k 0 ∈ g.callees := by
    intro k hk
    rw [List.getD_eq_getElem?_getD, List.getElem?_eq_getElem hk]
    exact List.getElem_mem hk
  simp only [pick] at h
  split at h
  · rename_i hl
    split at h
    · cases h; exact mem _ (by omega)
    · split at h
      · cases h; exact mem _ (by omega)
      · split at h
        · simp only [Res.ok.injEq, Prod.mk.injEq] at h
          rw [← h.1]
          apply mem
          split <;> omega
        · split at h
          · cases h; exact mem _ (Nat.mod_lt _ (by omega))
          · cases h; exact mem _ (by omega)
  · split at h
    · cases h
    · rename_i x xs hx
      cases h
      rw [hx]
      exact List.mem_cons_self ..

/-- **C155** (dealers). After every history with fewer than 2^53 calls in which the dealer did not panic: a call returns an error exactly if `dealerError`
has a text for it, and what the text says is so.  What is missing is shown by `C155_yield_refuted`: the text about a YIELD is read as one about
the invocation, although it speaks of a session. -/
theorem C155_dealer_partial {h : List Event} {b : State} (hh : Hist w h b) (hlen : h.length < 2 ^ 53) (op : Op) :
    ((step w b op).2 = .err ↔ ∃ t, dealerError w b op = some t) ∧ ∀ t, dealerError w b op = some t → DealerSays h op t := by
  refine ⟨dealer_err b op, ?_⟩
  have hS := hist_sinv hh
  have hR := hist_rinv hh (Nat.le_of_lt hlen)
  have hC := hist_cinv hh (Nat.le_of_lt hlen)
  have natt : ∀ s, b.sessions s = none → ¬attached h s := by
    intro s hs
    simp only [attached, ← hS.sess s, hs]
    simp
  have natt' : ∀ s, b.bySession s = none → ¬attached h s := by
    intro s hs
    simp only [attached, ← hS.bys s, hs]
    simp
  have open' : ∀ i, b.pending.get i = none → (∃ e ∈ h, ∃ c r x, invoked c r i x e) → ∃ e ∈ h, answerFor i e = true := by
    intro i hp hinv
    apply Classical.byContradiction
    intro hno
    obtain ⟨p, hp'⟩ := hC.kept i (.inl hinv) (fun e he => by
      cases ha : answerFor i e with
      | false => rfl
      | true => exact absurd ⟨e, he, ha⟩ hno)
    rw [hp] at hp'
    cases hp'
  intro t ht
  cases op with
  | add d =>
    simp only [dealerError] at ht
    split at ht
    · rename_i hs
      cases ht
      rw [dec_eq]
      exact .add d (by simp only [attached, ← hS.sess]; exact hs)
    · cases ht
  | remove s o =>
    simp only [dealerError] at ht
    split at ht
    · rename_i hs; cases ht; rw [dec_eq]; exact .remove s o (natt s hs)
    · cases ht
  | has t => simp [dealerError] at ht
  | disclose on => simp [dealerError] at ht
  | receive s m order rnd =>
    have oth : m.kind ≠ .call → m.kind ≠ .yield → m.kind ≠ .register → m.kind ≠ .unregister → m.kind ≠ .error →
        t = str "dealer: received unexpected message of type " ++ typeName m → DealerSays h (.receive s m order rnd) t := by
      intro h1 h2 h3 h4 h5 e
      rw [e, dealer_unexpected]
      exact .other s m order rnd h1 h2 h3 h4 h5
    cases m <;> simp only [dealerError] at ht
    case call q o p a k bin =>
      split at ht
      · cases ht
      · rename_i x hx
        split at ht
        · cases ht
        · split at ht
          · rename_i c n hp
            split at ht
            · cases ht
            · split at ht
              · rename_i hc
                cases ht
                rw [dec_eq]
                refine .callee s q o p a k bin order rnd c (natt c hc) ?_
                have hxn : x < b.next := by
                  have hl := hx
                  simp only [lookup] at hl
                  have hpre : ∀ y, longestPrefix b.tree p = some y → y < b.next := by
                    intro y hy
                    obtain ⟨p', _, hp', _⟩ := longestPrefix_some hy
                    exact (hR.trp p' y hp').1
                  split at hl
                  · rename_i y hy
                    have hyn := (hR.byp p y hy).1
                    split at hl
                    · split at hl
                      · rename_i z hz; cases hl; exact hpre _ hz
                      · cases hl; exact hyn
                    · cases hl; exact hyn
                  · split at hl
                    · rename_i z hz; cases hl; exact hpre _ hz
                    · obtain ⟨p', _, hp'⟩ := firstWildcard_some hl
                      exact (hR.wcp p' x hp').1
                obtain ⟨e, he, hr⟩ := hR.cal x hxn c (pick_mem hp)
                exact ⟨e, he, _, _, hr⟩
              · cases ht
          · cases ht
    case yield i o a k bin =>
      split at ht
      · rename_i hp; cases ht; rw [dec_eq]; exact .noCall s i o a k bin order rnd (open' i hp)
      · rename_i p hp
        split at ht
        · rename_i hc
          cases ht
          rw [dec_eq]
          refine .caller s i o a k bin order rnd p.callerID (natt _ hc) ?_
          obtain ⟨_, _, _, ⟨e, he, o', h1, _⟩, _⟩ := hC.pen i p hp
          exact ⟨e, he, _, o', h1⟩
        · cases ht
    case register q o p =>
      split at ht
      · rename_i hs; cases ht; rw [dec_eq]; exact .register s q o p order rnd (natt' s hs)
      · cases ht
    case unregister q i =>
      have none' : (∀ m, b.bySession s = some m → m.get i = none) → ∀ p, ¬holds h s p i := by
        intro hn p hold
        obtain ⟨m, a, h1, h2⟩ := holds_entry hh s p i hold
        rw [hn m h1] at h2
        cases h2
      split at ht
      · rename_i hs
        cases ht
        rw [dec_eq, dec_eq]
        exact .unregister s q i order rnd (none' (fun m hm => by rw [hs] at hm; cases hm))
      · rename_i m hs
        split at ht
        · rename_i he
          cases ht
          rw [dec_eq, dec_eq]
          refine .unregister s q i order rnd (none' (fun m' hm => ?_))
          rw [hs] at hm
          cases hm
          rw [List.isEmpty_iff.1 he]
          rfl
        · cases ht
    case error x i d u a k =>
      split at ht
      · rename_i hx; cases ht; exact .notInvocation s x i d u a k order rnd hx
      · rename_i hx
        have hx : x = 68 := Classical.not_not.1 hx
        subst hx
        split at ht
        · rename_i hp; cases ht; rw [dec_eq]; exact .noInvocation s i d u a k order rnd (open' i hp)
        · cases ht
    all_goals exact oth (by simp [Msg.kind]) (by simp [Msg.kind]) (by simp [Msg.kind]) (by simp [Msg.kind]) (by simp [Msg.kind]) (Option.some.inj ht).symm

/-- The calls so far: sessions 1 and 2, a procedure of session 2, a call by session 1, which became INVOCATION 2. -/
private def called : List Op := [.add (who 1), .add (who 2), reg 2 "p", callOf 1 7 "p"]

/-- **C155 is false** for YIELD: session 2 owes an answer to INVOCATION 2; if it answers a number that was never used instead, it is told that
it has no calls pending. -/
theorem C155_yield_refuted : ∃ h b, Hist w h b ∧ attached h 2 ∧ (∃ e ∈ h, invoked 1 7 2 2 e) ∧ (∀ e ∈ h, answerFor 2 e = false) ∧
    dealerError w b (yieldOf 2 99) = some (str "yield: not pending calls for session 2") := by
  refine ⟨_, _, hist_run called rfl, rfl, ⟨_, .head _, _, _, _, _, _, _, _, _, _, _, _, _, rfl⟩, ?_, ?_⟩
  · intro e he
    simp only [called, run, exec, List.mem_cons, List.not_mem_nil, or_false] at he
    rcases he with rfl | rfl | rfl | rfl <;> rfl
  · have h2 : str "yield: not pending calls for session " ++ dec 2 = str "yield: not pending calls for session 2" := by decide +kernel
    exact congrArg some h2

/-- The caller leaves; the answer is refused with a text that names the caller. -/
example : dealerError w (after w (called ++ [.remove 1 []])) (yieldOf 2 2) = some (str "yield: caller " ++ dec 1 ++ str " gone before receiving result") := rfl
/-- UNREGISTER without any registration. -/
example : dealerError w (after w called) (unreg 1 1) = some (str "unregister: session " ++ dec 1 ++ str " has no registration " ++ dec 1) := rfl
/-- UNREGISTER of a registration that one has returns no error. -/
example : dealerError w (after w called) (unreg 2 1) = none := rfl
/-- An ERROR for an INVOCATION that is open returns no error, for another one it does. -/
example : dealerError w (after w called) (.receive 2 (.error 68 2 none [] none none) [] 0) = none ∧
    dealerError w (after w called) (.receive 2 (.error 68 3 none [] none none) [] 0) = some (str "dealer: no pending invocation for " ++ dec 3) ∧
    dealerError w (after w called) (.receive 2 (.error 48 2 none [] none none) [] 0) =
      some (str "dealer: only expected to receive error in response to invocation") := ⟨rfl, rfl, rfl⟩
/-- A history as `C155_dealer_partial` asks for, and an error in it. -/
example : Hist w (run w called) (after w called) ∧ (step w (after w called) (.add (who 1))).2 = .err ∧
    dealerError w (after w called) (.add (who 1)) = some (str "cannot attach an already attached client " ++ dec 1) :=
  ⟨hist_run called rfl, rfl, rfl⟩

end

end Wamp.RouterText
