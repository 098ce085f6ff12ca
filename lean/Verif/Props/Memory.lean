import Verif.Spec.Memory
import Verif.Lemmas.DealerTame
import Verif.Lemmas.DealerWho
import Verif.Lemmas.DealerCalls
import Verif.Props.AsNewDealer
import Verif.Props.Session
/-!
# C144: what is over is forgotten
-/
namespace Wamp

namespace Broker
variable {w : Str → Str → Bool}

theorem C144_broker {h : List Event} {b : State} (hh : Hist w h b) (hlen : h.length ≤ maxID) : Accounted h b := by
  have hi := hist_inv hh hlen
  have hl : ∀ t a, b.byTopic t = some a → live h t := by
    intro t a ha
    obtain ⟨-, -, hne, -⟩ := hi.top t a ha
    obtain ⟨s, hs⟩ := List.exists_mem_of_ne_nil _ hne
    exact ⟨s, _, (hi.cur s t _).2 ⟨a, ha, rfl, hs⟩⟩
  refine ⟨?_, ?_, ?_, ?_, ?_, ?_, ?_⟩
  · intro s hs; rw [hi.sess] at hs; exact hs
  · intro s hs; rw [hi.bys] at hs; exact hs
  · intro s m hm
    refine ⟨hi.nod s m hm, fun i hk => ?_⟩
    obtain ⟨a, ha⟩ := Option.isSome_iff_exists.1 ((AMap.mem_keys m i).1 hk)
    obtain ⟨h1, h2, h3⟩ := hi.ses s m i a hm ha
    exact ⟨_, (hi.cur s _ i).2 ⟨a, h1, h2, h3⟩⟩
  · intro t ht
    obtain ⟨a, ha⟩ := Option.isSome_iff_exists.1 ht
    exact hl t a ha
  · intro t ht
    obtain ⟨a, ha⟩ := Option.isSome_iff_exists.1 ht
    exact hl t a ((hi.tre t a).1 ha).1
  · intro t ht
    obtain ⟨a, ha⟩ := Option.isSome_iff_exists.1 ht
    exact hl t a ((hi.wcs t a).1 ha).1
  · intro t a ha
    exact ⟨(hi.top t a ha).2.2.2.1, fun s hs => ⟨_, (hi.cur s t _).2 ⟨a, ha, rfl, hs⟩⟩⟩

/-- When everybody has left, nothing is stored. -/
theorem C144_broker_empty {h : List Event} {b : State} (hh : Hist w h b) (hlen : h.length ≤ maxID) (hn : ∀ s, ¬attached h s) : Empty b := by
  have hi := hist_inv hh hlen
  have hk := C144_broker hh hlen
  have hnone : ∀ {α} {o : Option α}, ¬o.isSome = true → o = none := fun {α o} h => by cases o with | none => rfl | some a => exact absurd rfl h
  have hlive : ∀ t, ¬live h t := by
    rintro t ⟨s, i, hc⟩
    obtain ⟨a, ha, -, hs⟩ := (hi.cur s t i).1 hc
    obtain ⟨m, hm, -⟩ := hi.ses' t a s ha hs
    exact hn s (hk.tables s (by rw [hm]; rfl))
  exact ⟨fun s => hnone fun h => hn s (hk.sessions s h), fun s => hnone fun h => hn s (hk.tables s h), fun t => hnone fun h => hlive t (hk.topics t h),
    fun t => hnone fun h => hlive t (hk.prefixes t h), fun t => hnone fun h => hlive t (hk.wildcards t h)⟩

/-- Sessions 1 and 2 subscribe to prefix patterns, 2 leaves: one topic and one pattern are stored. -/
example : ∃ h b, Hist noWild h b ∧ h.length ≤ maxID ∧ attached h 1 ∧ (b.byTopic (str "a")).isSome = true ∧ (b.tree.get (str "a")).isSome = true ∧
    b.byTopic (str "b") = none ∧ b.tree.get (str "b") = none ∧ b.bySession 2 = none :=
  ⟨_, _, hist_exec .new [.add (who 1), .add (who 2), subWith 1 "a" "prefix", subWith 2 "b" "prefix", .remove 2 []], Nat.le_of_ble_eq_true rfl, rfl, rfl, rfl, rfl, rfl, rfl⟩

example : ∃ h b, Hist noWild h b ∧ h.length = 4 ∧ h.length ≤ maxID ∧ (∀ s, ¬attached h s) :=
  ⟨_, _, hist_exec .new [.add (who 1), subWith 1 "a" "prefix", sub 1 "b", .remove 1 []], rfl, Nat.le_of_ble_eq_true rfl, nobody (by decide +kernel)⟩

end Broker

namespace Dealer
variable {w : Str → Str → Bool}

theorem C144_dealer_partial {h : List Event} {b : State} (hh : Hist w h b) (hlen : h.length ≤ maxID) : Accounted h b := by
  have hS := hist_sinv hh
  have hC := hist_cinv hh hlen
  have hW := hist_winv hh hlen
  refine ⟨?_, ?_, ?_, ?_, ?_⟩
  · intro s hs; rw [hS.sess] at hs; exact hs
  · intro s hs; rw [hS.bys] at hs; exact hs
  · intro i q hq
    obtain ⟨-, -, -, ⟨e, he, o, h1, -, h2⟩, -⟩ := hC.pen i q hq
    refine ⟨⟨e, he, o, h1, h2⟩, fun e' he' => ?_⟩
    cases hf : finalFor i e' with
    | false => rfl
    | true => rw [((hC.fin i).2 ⟨e', he', hf⟩).2] at hq; cases hq
  · intro s m i hm hi
    obtain ⟨a, ha⟩ := Option.isSome_iff_exists.1 hi
    exact ⟨_, hW.ses s m i a hm ha⟩
  · intro p a s ha hs
    exact ⟨_, (hW.who p a s ha hs).2⟩

/-- Where nobody registers twice for `p` and only a sole registrant unregisters. -/
theorem C144_procedure_partial {h : List Event} {b : State} {p : Str} (hh : Hist w h b) (hlen : h.length ≤ maxID) (ht : Tame p h) :
    AccountedFor p h b := by
  have hH := hist_hinv hh hlen ht.held
  have hT := hist_tinv hh hlen ht
  have hR := hist_rinv hh hlen
  have hne : ∀ a, b.byProc p = some a → members h p ≠ [] := by
    intro a ha
    obtain ⟨r, h1, -, -, -, h2, h3⟩ := hH.live a ha
    obtain ⟨s, hs⟩ := List.exists_mem_of_ne_nil _ h3
    simp only [members, h1]
    exact List.ne_nil_of_mem ((h2 s).1 hs)
  refine ⟨?_, ?_, ?_, ?_⟩
  · intro hs
    obtain ⟨a, ha⟩ := Option.isSome_iff_exists.1 hs
    exact hne a ha
  · intro hs
    obtain ⟨a, ha⟩ := Option.isSome_iff_exists.1 hs
    exact hne a (hH.wl a ha).1
  · intro a ha
    obtain ⟨r, h1, -⟩ := hH.live a ha
    obtain ⟨h2, -, h3⟩ := hT.cs a r ha h1
    simp only [members, h1]
    exact ⟨by rw [h2]; exact h3, fun s hs => by rw [← h2]; exact hs⟩
  · intro s m i a hm hi hp
    obtain ⟨h1, h2⟩ := hT.ses s m i a hm hi hp
    obtain ⟨r, h3, h4, -, -, h5, -⟩ := hH.live a h1
    simp only [members, h3]
    exact ⟨(h5 s).1 h2, by rw [Option.map_some, h4, (hR.sesp s m i a hm hi).2]⟩

/-- Sessions 2 and 3 share "p", 2 leaves, and a call waits for its answer. -/
example : ∃ h b, Hist noWild h b ∧ h.length ≤ maxID ∧ Tame (str "p") h ∧ members h (str "p") = [3] ∧ (b.byProc (str "p")).isSome = true ∧
    (b.pending.get 2).isSome = true ∧ b.bySession 2 = none := by
  refine ⟨_, _, hist_run [.add (who 1), .add (who 2), .add (who 3), regWith 2 "p" "first", regWith 3 "p" "first", .remove 2 [], callOf 1 7 "p"] (by decide +kernel),
    Nat.le_of_ble_eq_true rfl, ?_, by decide +kernel, rfl, rfl, rfl⟩
  exact ⟨trivial, trivial, fun _ => by decide, fun _ => by decide, trivial, trivial, trivial, trivial⟩

/-! ### What is kept for ever -/

/-- A session. -/
private def me : SessionDetails := ⟨1, [], [], [], [], false, none, none⟩

private def proc : Str := str "p"

/-- After `n` answered calls. -/
private structure Busy (w : Str → Str → Bool) (n : Nat) (h : List Event) (b : State) : Prop where
  hist : Hist w h b
  one : session h 1 = some me
  others : ∀ s, s ≠ 1 → session h s = none
  done : ∀ e ∈ h, ∀ c r o, isCall c r o e → ∃ e' ∈ h, answered c r e' = true
  byp : b.byProc proc = some 0
  obj : b.heap 0 = ⟨1, proc, [1], [], 0, [1], matchExact⟩
  bys : b.bySession 1 = some [(1, 0)]
  ses : b.sessions 1 = some me
  det : b.details = false
  pen : b.pending = []
  inv : ∀ r, (b.invByCall (1, r)).isSome = decide (r < n)

private theorem busy (w : Str → Str → Bool) : ∀ n, ∃ h b, Busy w n h b
  | 0 => by
    refine ⟨_, _, .step (.receive 1 (.register 1 none proc) [] 0) (.step (.add me) .new (fun h => nomatch h)) (fun h => nomatch h), ?_, ?_, ?_, ?_, ?_, ?_, ?_, ?_, ?_, ?_⟩
    · rfl
    · intro s hs; exact if_neg (fun h => hs h.symm)
    · intro e he c r o hc
      simp only [List.mem_cons, List.not_mem_nil, or_false] at he
      obtain ⟨p, a, k, bin, order, rnd, hc⟩ := hc
      rcases he with rfl | rfl <;> cases hc
    all_goals first | rfl | (intro r; rfl)
  | n + 1 => by
    obtain ⟨h, b, x⟩ := busy w n
    have e1 : step w b (.receive 1 (.call n none proc none none ⟨false, 0, []⟩) [] 0) =
        ({ b with heap := hset b.heap 0 (b.heap 0), idGen := (nextID b.idGen).1, pending := [((nextID b.idGen).2, ⟨n, 1, 1, false, false⟩)],
                  invByCall := b.invByCall.set (1, n) (nextID b.idGen).2 },
          .ok (.msg (newInvocation (nextID b.idGen).2 1 (some []) none none) 1)) := by
      have hi : b.invByCall (1, n) = none := by
        have := x.inv n
        cases h : b.invByCall (1, n) with
        | none => rfl
        | some i => rw [h] at this; simp at this
      simp [step, receive, call, lookup, x.byp, x.obj, pick, x.det, x.ses, x.pen, hi, me, AMap.set, invocationDetails, GoMap.flag, GoMap.get, Res.map, Res.bind]
    have e2 : step w (step w b (.receive 1 (.call n none proc none none ⟨false, 0, []⟩) [] 0)).1
          (.receive 1 (.yield (nextID b.idGen).2 none none none ⟨false, 0, []⟩) [] 0) =
        ({ b with heap := hset b.heap 0 (b.heap 0), idGen := (nextID b.idGen).1, pending := [],
                  invByCall := b.invByCall.set (1, n) (nextID b.idGen).2 },
          .ok (.msg (newResult n none none none) 1)) := by
      rw [e1]
      simp [step, receive, yield, x.ses, me, AMap.get, AMap.del, GoMap.flag, GoMap.get, Res.map, Res.bind]
    have h1 := Hist.step (.receive 1 (.call n none proc none none ⟨false, 0, []⟩) [] 0) x.hist (by rw [e1]; exact fun h => nomatch h)
    have h2 := Hist.step (.receive 1 (.yield (nextID b.idGen).2 none none none ⟨false, 0, []⟩) [] 0) h1 (by rw [e2]; exact fun h => nomatch h)
    refine ⟨_, _, h2, x.one, fun s hs => x.others s hs, ?_, ?_, ?_, ?_, ?_, ?_, ?_, ?_⟩
    · intro e he c r o hc
      rw [List.mem_cons, List.mem_cons] at he
      rcases he with rfl | rfl | he
      · obtain ⟨p, a, k, bin, order, rnd, hc⟩ := hc
        cases hc
      · obtain ⟨p, a, k, bin, order, rnd, hc⟩ := hc
        cases hc
        refine ⟨_, List.mem_cons_self, ?_⟩
        rw [e2]
        simp [answered, newResult, GoMap.flag, GoMap.get, orEmpty, dget]
      · obtain ⟨e', he', ha⟩ := x.done e he c r o hc
        exact ⟨e', List.mem_cons_of_mem _ (List.mem_cons_of_mem _ he'), ha⟩
    all_goals rw [e2]
    · exact x.byp
    · simp [hset, x.obj]
    · exact x.bys
    · exact x.ses
    · exact x.det
    · intro r
      show (FMap.set b.invByCall (1, n) _ (1, r)).isSome = _
      rw [FMap.set_apply]
      split
      · rename_i h; cases h; simp
      · rename_i h
        rw [x.inv r]
        have : r ≠ n := fun e => h (by rw [e])
        simp only [decide_eq_decide]; omega

/-- The IDs of calls are kept: whatever `n`, a dealer can hold `n` of them although everybody has left and every call was answered. -/
theorem C144_calls_kept (w : Str → Str → Bool) (n : Nat) : ∃ h b, Hist w h b ∧ (∀ s, ¬attached h s) ∧
    (∀ e ∈ h, ∀ c r o, isCall c r o e → ∃ e' ∈ h, answered c r e' = true) ∧ Fills b.invByCall n := by
  obtain ⟨h, b, x⟩ := busy w n
  have e1 : (step w b (.remove 1 [])).2 = .ok .unit ∧ (step w b (.remove 1 [])).1.invByCall = b.invByCall := by
    simp [step, removeSession, x.ses, x.bys, AMap.keys, arrange, AMap.get, removeLoop, removeStep, x.obj, x.byp, surgery, Res.bind, Res.map]
  refine ⟨_, _, .step (.remove 1 []) x.hist (by rw [e1.1]; exact fun h => nomatch h), ?_, ?_, (List.range n).map fun r => (1, r), ?_, by simp, ?_⟩
  · intro s hs
    rw [e1.1] at hs
    simp only [attached, session] at hs
    split at hs
    · cases hs
    · rename_i h; rw [x.others s (fun e => h e.symm)] at hs; cases hs
  · intro e he c r o hc
    rcases List.mem_cons.1 he with rfl | he
    · obtain ⟨p, a, k, bin, order, rnd, hc⟩ := hc
      cases hc
    · obtain ⟨e', he', ha⟩ := x.done e he c r o hc
      exact ⟨e', List.mem_cons_of_mem _ he', ha⟩
  · exact List.Pairwise.map _ (fun a b hab h => hab (by cases h; rfl)) List.nodup_range
  · intro k hk
    obtain ⟨r, hr, rfl⟩ := List.mem_map.1 hk
    rw [e1.2, x.inv r]
    exact decide_eq_true (List.mem_range.1 hr)

/-- After `n` calls that were not answered. -/
private structure Waiting (w : Str → Str → Bool) (n : Nat) (h : List Event) (b : State) : Prop where
  hist : Hist w h b
  one : session h 1 = some me
  others : ∀ s, s ≠ 1 → session h s = none
  byp : b.byProc proc = some 0
  obj : b.heap 0 = ⟨1, proc, [1], [], 0, [1], matchExact⟩
  bys : b.bySession 1 = some [(1, 0)]
  ses : b.sessions 1 = some me
  det : b.details = false
  gen : b.idGen = n + 1
  pen : ∀ i, (b.pending.get i).isSome = decide (2 ≤ i ∧ i ≤ n + 1)
  inv : ∀ r, n ≤ r → b.invByCall (1, r) = none

private theorem waiting (w : Str → Str → Bool) : ∀ n, n < maxID → ∃ h b, Waiting w n h b
  | 0, _ => by
    refine ⟨_, _, .step (.receive 1 (.register 1 none proc) [] 0) (.step (.add me) .new (fun h => nomatch h)) (fun h => nomatch h), ?_, ?_, ?_, ?_, ?_, ?_, ?_, ?_, ?_, ?_⟩
    · rfl
    · intro s hs; exact if_neg (fun h => hs h.symm)
    all_goals first | rfl | skip
    · intro i
      show false = _
      have : ¬(2 ≤ i ∧ i ≤ 0 + 1) := by omega
      exact (decide_eq_false this).symm
    · intro r _; rfl
  | n + 1, hn => by
    obtain ⟨h, b, x⟩ := waiting w n (by omega)
    have hi := x.inv n (Nat.le_refl n)
    have hg : nextID b.idGen = (n + 2, n + 2) := by
      rw [x.gen, nextID, if_neg (by omega)]
    have e1 : step w b (.receive 1 (.call n none proc none none ⟨false, 0, []⟩) [] 0) =
        ({ b with heap := hset b.heap 0 (b.heap 0), idGen := n + 2, pending := b.pending.set (n + 2) ⟨n, 1, 1, false, false⟩,
                  invByCall := b.invByCall.set (1, n) (n + 2) },
          .ok (.msg (newInvocation (n + 2) 1 (some []) none none) 1)) := by
      simp [step, receive, call, lookup, x.byp, x.obj, pick, x.det, x.ses, hg, hi, me, invocationDetails, GoMap.flag, GoMap.get, Res.map, Res.bind]
    refine ⟨_, _, .step (.receive 1 (.call n none proc none none ⟨false, 0, []⟩) [] 0) x.hist (by rw [e1]; exact fun h => nomatch h),
      x.one, fun s hs => x.others s hs, ?_, ?_, ?_, ?_, ?_, ?_, ?_, ?_⟩
    all_goals rw [e1]
    · exact x.byp
    · simp [hset, x.obj]
    · exact x.bys
    · exact x.ses
    · exact x.det
    · intro i
      show (AMap.get (AMap.set b.pending (n + 2) _) i).isSome = _
      rw [AMap.get_set]
      split
      · rename_i h; subst h; simp
      · rename_i h
        rw [x.pen i]
        simp only [decide_eq_decide]; omega
    · intro r hr
      show FMap.set b.invByCall (1, n) _ (1, r) = none
      rw [FMap.set_other _ _ (fun h => by cases h; omega)]
      exact x.inv r (by omega)

/-- Calls that were not answered before the callee left are kept, up to `2^53 - 1` of them. -/
theorem C144_unanswered_kept (w : Str → Str → Bool) (n : Nat) (hn : n < maxID) : ∃ h b, Hist w h b ∧ (∀ s, ¬attached h s) ∧ Fills b.pending.get n := by
  obtain ⟨h, b, x⟩ := waiting w n hn
  have e1 : (step w b (.remove 1 [])).2 = .ok .unit ∧ (step w b (.remove 1 [])).1.pending = b.pending := by
    simp [step, removeSession, x.ses, x.bys, AMap.keys, arrange, AMap.get, removeLoop, removeStep, x.obj, x.byp, surgery, Res.bind, Res.map]
  refine ⟨_, _, .step (.remove 1 []) x.hist (by rw [e1.1]; exact fun h => nomatch h), ?_, (List.range n).map fun r => r + 2, ?_, by simp, ?_⟩
  · intro s hs
    rw [e1.1] at hs
    simp only [attached, session] at hs
    split at hs
    · cases hs
    · rename_i h; rw [x.others s (fun e => h e.symm)] at hs; cases hs
  · exact List.Pairwise.map _ (fun a b hab h => hab (by omega)) List.nodup_range
  · intro k hk
    obtain ⟨r, hr, rfl⟩ := List.mem_map.1 hk
    rw [e1.2, x.pen]
    have := List.mem_range.1 hr
    exact decide_eq_true (by omega)

/-- The options of a REGISTER for a prefix pattern. -/
private def prefixed : GoMap := some [(str "match", .str (str "prefix"))]

/-- After `n` prefix patterns that were registered and unregistered. -/
private structure Past (w : Str → Str → Bool) (n : Nat) (h : List Event) (b : State) : Prop where
  hist : Hist w h b
  one : session h 1 = some me
  others : ∀ s, s ≠ 1 → session h s = none
  byp : ∀ p, b.byProc p = none
  reg : ∀ p, regOf h p = none
  bys : b.bySession 1 = some []
  ses : b.sessions 1 = some me
  tre : ∀ k, k < n → (b.tree.get (List.replicate k 97)).isSome = true

private theorem gonePatterns (w : Str → Str → Bool) : ∀ n, ∃ h b, Past w n h b
  | 0 => by
    refine ⟨_, _, .step (.add me) .new (fun h => nomatch h), ?_, ?_, ?_, ?_, ?_, ?_, ?_⟩
    · rfl
    · intro s hs; exact if_neg (fun h => hs h.symm)
    · intro p; rfl
    · intro p; rfl
    · rfl
    · rfl
    · intro k hk; omega
  | n + 1 => by
    obtain ⟨h, b, x⟩ := gonePatterns w n
    have ho : prefixed.text optInvoke = [] := by decide +kernel
    have hm : normMatch (prefixed.text optMatch) = matchPrefix := by decide +kernel
    have hw : matchPrefix ≠ matchWildcard := by decide +kernel
    have e1 : ∃ b', step w b (.receive 1 (.register 1 prefixed (List.replicate n 97)) [] 0) = (b', .ok (.msg (newRegistered 1 (nextID b.idGen).2) 1)) ∧
        b'.heap b.next = ⟨(nextID b.idGen).2, List.replicate n 97, [1], [], 0, [1], matchPrefix⟩ ∧
        b'.bySession 1 = some [((nextID b.idGen).2, b.next)] ∧ b'.sessions = b.sessions ∧ b'.tree = b.tree.set (List.replicate n 97) b.next ∧
        b'.byProc = b.byProc.set (List.replicate n 97) b.next := by
      refine ⟨(step w b (.receive 1 (.register 1 prefixed (List.replicate n 97)) [] 0)).1, Prod.ext rfl ?_, ?_⟩
      · simp only [step, receive, register, x.bys, x.byp, Res.map, Res.bind, ho, hm]
      · simp [step, receive, register, x.bys, x.byp, ho, hm, hset, AMap.set, FMap.set]
    obtain ⟨b', e1, h1, h2, h3, h4, h5⟩ := e1
    have e2 : ∃ b'', step w b' (.receive 1 (.unregister 2 (nextID b.idGen).2) [] 0) = (b'', .ok (.msg (newUnregistered 2) 1)) ∧
        b''.bySession 1 = some [] ∧ b''.sessions = b.sessions ∧ b''.tree = b.tree.set (List.replicate n 97) b.next ∧ ∀ p, b''.byProc p = none := by
      refine ⟨(step w b' (.receive 1 (.unregister 2 (nextID b.idGen).2) [] 0)).1, Prod.ext rfl ?_, ?_⟩
      · simp only [step, receive, unregister, h2, h1, Res.map, Res.bind, AMap.get, if_true, List.isEmpty_cons, Bool.false_eq_true, if_false]
      · simp only [step, receive, unregister, h2, h1, AMap.get, if_true, List.isEmpty_cons, Bool.false_eq_true, if_false, List.filter, ne_eq, not_true_eq_false, decide_false, List.isEmpty_nil, if_true, AMap.del, FMap.set_same, h3, h4, h5, true_and]
        intro p
        rw [FMap.del_apply]
        split
        · rfl
        · rename_i h; rw [FMap.set_other _ _ h]; exact x.byp p
    obtain ⟨b'', e2, k1, k2, k3, k4⟩ := e2
    have H1 := Hist.step (.receive 1 (.register 1 prefixed (List.replicate n 97)) [] 0) x.hist (by rw [e1]; exact fun h => nomatch h)
    rw [e1] at H1
    have H2 := Hist.step (.receive 1 (.unregister 2 (nextID b.idGen).2) [] 0) H1 (by rw [e2]; exact fun h => nomatch h)
    rw [e2] at H2
    refine ⟨_, _, H2, x.one, fun s hs => x.others s hs, k4, ?_, k1, by rw [k2]; exact x.ses, ?_⟩
    · intro p
      simp only [regOf, newRegistered, x.reg]
      split
      · simp [leave]
      · rfl
    intro k hk
    show (b''.tree.get _).isSome = true
    rw [k3, AMap.get_set]
    split
    · rfl
    · rename_i h
      exact x.tre k (by have : k ≠ n := fun e => h (by rw [e]); omega)

/-- Prefix patterns that nobody has registered any more are kept. -/
theorem C144_patterns_kept (w : Str → Str → Bool) (n : Nat) : ∃ h b, Hist w h b ∧ (∀ s, ¬attached h s) ∧ (∀ p, members h p = []) ∧ Fills b.tree.get n := by
  obtain ⟨h, b, x⟩ := gonePatterns w n
  have e1 : (step w b (.remove 1 [])).2 = .ok .unit ∧ (step w b (.remove 1 [])).1.tree = b.tree := by
    simp [step, removeSession, x.ses, x.bys, AMap.keys, arrange, removeLoop, Res.map]
  have hH := Hist.step (.remove 1 []) x.hist (by rw [e1.1]; exact fun h => nomatch h)
  refine ⟨_, _, hH, ?_, ?_, (List.range n).map fun k => List.replicate k 97, ?_, by simp, ?_⟩
  · intro s hs
    rw [e1.1] at hs
    simp only [attached, session] at hs
    split at hs
    · cases hs
    · rename_i h; rw [x.others s (fun e => h e.symm)] at hs; cases hs
  · intro p
    simp only [members, e1.1, regOf, x.reg, Option.bind_none]
  · refine List.Pairwise.map _ (fun a b hab h => hab ?_) List.nodup_range
    have := congrArg List.length h
    simpa using this
  · intro k hk
    obtain ⟨r, hr, rfl⟩ := List.mem_map.1 hk
    rw [e1.2]
    exact x.tre r (List.mem_range.1 hr)

/-- Another session. -/
private def other : SessionDetails := ⟨2, [], [], [], [], false, none, none⟩

/-- The options of a REGISTER for a shared procedure. -/
private def shared : GoMap := some [(str "invoke", .str (str "roundrobin"))]

/-- After session 2 has registered and unregistered `n` times. -/
private structure Again (w : Str → Str → Bool) (n : Nat) (h : List Event) (b : State) : Prop where
  hist : Hist w h b
  sess : ∀ s, attached h s → s = 1 ∨ s = 2
  reg : regOf h proc = some ⟨1, str "roundrobin", [], [1]⟩
  byp : b.byProc proc = some 0
  obj : b.heap 0 = ⟨1, proc, [1], invokeRoundRobin, 0, 1 :: List.replicate n 2, matchExact⟩
  bys : ∃ m : AMap Nat Nat, b.bySession 2 = some m ∧ AMap.set m 1 0 = [(1, 0)]

private theorem again (w : Str → Str → Bool) : ∀ n, ∃ h b, Again w n h b
  | 0 => by
    refine ⟨_, _, .step (.add other) (.step (.receive 1 (.register 1 shared proc) [] 0) (.step (.add me) .new (fun h => nomatch h))
      (fun h => nomatch h)) (fun h => nomatch h), ?_, ?_, ?_, ?_, ⟨[], ?_, ?_⟩⟩
    · intro s hs
      have hs : (if 2 = s then some other else if 1 = s then some me else none).isSome = true := hs
      by_cases e1 : 2 = s
      · exact .inr e1.symm
      · by_cases e2 : 1 = s
        · exact .inl e2.symm
        · rw [if_neg e1, if_neg e2] at hs; cases hs
    all_goals rfl
  | n + 1 => by
    obtain ⟨h, b, x⟩ := again w n
    obtain ⟨m, hm, hm'⟩ := x.bys
    have ho : shared.text optInvoke = invokeRoundRobin := by decide +kernel
    have hp : invokeRoundRobin ≠ [] ∧ invokeRoundRobin ≠ invokeSingle := by decide +kernel
    have e1 : ∃ b', step w b (.receive 2 (.register 1 shared proc) [] 0) = (b', .ok (.msg (newRegistered 1 1) 2)) ∧
        b'.heap 0 = ⟨1, proc, [1, 2], invokeRoundRobin, 0, 1 :: List.replicate (n + 1) 2, matchExact⟩ ∧
        b'.bySession 2 = some [(1, 0)] ∧ b'.byProc = b.byProc := by
      refine ⟨(step w b (.receive 2 (.register 1 shared proc) [] 0)).1, Prod.ext rfl ?_, ?_⟩
      · simp only [step, receive, register, hm, x.byp, x.obj, Res.map, Res.bind, ho, hp.1, hp.2, ne_eq, not_true_eq_false, or_self, if_false]
      · simp [step, receive, register, hm, x.byp, x.obj, ho, hp.1, hp.2, hset, hm', List.replicate_succ']
    obtain ⟨b', e1, h1, h2, h3⟩ := e1
    have e2 : ∃ b'', step w b' (.receive 2 (.unregister 2 1) [] 0) = (b'', .ok (.msg (newUnregistered 2) 2)) ∧
        b''.heap 0 = ⟨1, proc, [1], invokeRoundRobin, 0, 1 :: List.replicate (n + 1) 2, matchExact⟩ ∧
        b''.bySession 2 = some [(1, 0)] ∧ b''.byProc = b.byProc := by
      refine ⟨(step w b' (.receive 2 (.unregister 2 1) [] 0)).1, Prod.ext rfl ?_, ?_⟩
      · simp only [step, receive, unregister, h2, h1, Res.map, Res.bind, AMap.get, if_true, List.isEmpty_cons, Bool.false_eq_true, if_false]
      · simp [step, receive, unregister, h2, h1, AMap.get, hset, h3]
    obtain ⟨b'', e2, k1, k2, k3⟩ := e2
    have H1 := Hist.step (.receive 2 (.register 1 shared proc) [] 0) x.hist (by rw [e1]; exact fun h => nomatch h)
    rw [e1] at H1
    have H2 := Hist.step (.receive 2 (.unregister 2 1) [] 0) H1 (by rw [e2]; exact fun h => nomatch h)
    rw [e2] at H2
    refine ⟨_, _, H2, fun s hs => x.sess s hs, ?_, by rw [k3]; exact x.byp, k1, [(1, 0)], k2, rfl⟩
    simp [regOf, newRegistered, x.reg, leave]

/-- A session that registers for a shared procedure and unregisters, again and again, leaves something behind each time. -/
theorem C144_callees_kept (w : Str → Str → Bool) (n : Nat) : ∃ h b p a, Hist w h b ∧ (∀ s, attached h s → s = 1 ∨ s = 2) ∧
    members h p = [1] ∧ b.byProc p = some a ∧ n ≤ (b.heap a).callees.length := by
  obtain ⟨h, b, x⟩ := again w n
  refine ⟨h, b, proc, 0, x.hist, x.sess, by simp [members, x.reg], x.byp, by simp [x.obj]⟩

end Dealer

namespace Session

set_option linter.unusedSimpArgs false in
private theorem invocation_kept (s : State) (op : Op) (k : Nat) :
    ((op.prog.run s).1 .invocation k).isSome =
      (invocationGot k ⟨op, (op.prog.run s).2⟩ || (!invocationDone k ⟨op, (op.prog.run s).2⟩ && (s .invocation k).isSome)) := by
  cases op with
  | send d m =>
    simp only [Op.prog, go_run]
    cases d with
    | err => cases m <;> simp [send, Prog.run, okB, invocationGot, invocationDone]
    | panic => cases m <;> simp [send, Prog.run, okB, invocationGot, invocationDone]
    | ok b =>
      cases m
      case yield r o _ _ _ =>
        simp only [send]
        by_cases h : o.flag optProgress = true
        · have h' : o.flag (str "progress") = true := h
          simp [h, h', Prog.run, okB, invocationGot, invocationDone]
        · have h' : o.flag (str "progress") = false := Bool.eq_false_iff.2 h
          simp [h, h', Prog.run, okB, invocationGot, invocationDone, put_apply, del_flip, isSome_del]
      case publish r o _ _ _ =>
        simp only [send]
        split <;> simp [Prog.run, okB, invocationGot, invocationDone, put_apply]
      case unsubscribe r g =>
        simp only [send, Prog.run]
        cases s .subscriptions g <;> simp [Prog.run, okB, invocationGot, invocationDone, put_apply]
      case error t r _ _ _ _ =>
        simp only [send]
        split <;> simp [Prog.run, okB, invocationGot, invocationDone, put_apply, del_flip, isSome_del]
      all_goals simp [send, Prog.run, okB, invocationGot, invocationDone, put_apply]
  | recv m =>
    simp only [Op.prog, go_run]
    cases m
    case error t r _ _ _ _ =>
      simp only [recv]
      rcases errorTab_cases t with rfl | rfl | rfl | rfl | rfl | rfl | h
      case inr.inr.inr.inr.inr.inr => simp [h, Prog.run, okB, invocationGot, invocationDone]
      all_goals
        simp only [errorTab, Prog.run]
        split <;> simp [Prog.run, okB, invocationGot, invocationDone, put_apply]
    case result r d _ _ _ =>
      simp only [recv, Prog.run]
      split
      · simp [Prog.run, okB, invocationGot, invocationDone]
      · split <;> simp [Prog.run, okB, invocationGot, invocationDone, put_apply]
    case unregistered r =>
      simp only [recv, Prog.run]
      split
      · simp [Prog.run, okB, invocationGot, invocationDone]
      · simp only [Prog.run]
        split <;> simp [Prog.run, okB, invocationGot, invocationDone, put_apply]
    case unsubscribed r =>
      simp only [recv, Prog.run]
      split
      · simp [Prog.run, okB, invocationGot, invocationDone]
      · simp only [Prog.run]
        split <;> simp [Prog.run, okB, invocationGot, invocationDone, put_apply]
    case invocation r g _ _ _ _ =>
      simp only [recv, Prog.run]
      split <;> simp [Prog.run, okB, invocationGot, invocationDone, put_apply, set_flip, isSome_set]
    case registered r g => simp only [recv, Prog.run]; split <;> simp [Prog.run, okB, invocationGot, invocationDone, put_apply]
    case published r g => simp only [recv, Prog.run]; split <;> simp [Prog.run, okB, invocationGot, invocationDone, put_apply]
    case subscribed r g => simp only [recv, Prog.run]; split <;> simp [Prog.run, okB, invocationGot, invocationDone, put_apply]
    case event g _ _ _ _ => simp only [recv, Prog.run]; split <;> simp [Prog.run, okB, invocationGot, invocationDone, put_apply]
    all_goals simp [recv, Prog.run, okB, invocationGot, invocationDone]

theorem C144_session_partial {h : List Event} {s : State} (hh : Hist h s) : Accounted h s := by
  have R := hist_reflects hh
  refine ⟨fun k hk => by rw [← R.call]; exact hk, fun k hk => by rw [← R.register]; exact hk, fun k hk => by rw [← R.publish]; exact hk, ?_,
    fun k hk => by rw [← R.registrations]; exact hk, fun k hk => by rw [← R.subscriptions]; exact hk⟩
  intro k
  clear R
  have : (s .invocation k).isSome = since (invocationGot k) (invocationDone k) h := by
    induction hh with
    | new => rfl
    | step op hh ih => rw [invocation_kept, ih]; rfl
  rw [this]; exact id

/-- Two INVOCATIONs were accepted and one of them answered. -/
example : ∃ h s, Hist h s ∧ (s .invocation 5).isSome = true ∧ s .invocation 6 = none ∧ since (invocationGot 5) (invocationDone 5) h = true ∧
    since (invocationGot 6) (invocationDone 6) h = false :=
  ⟨_, _, .step (.send (.ok []) (.yield 6 none none none .none)) (.step (.recv (.invocation 6 1 none none none .none))
    (.step (.recv (.invocation 5 1 none none none .none)) (.step (.recv (.registered 1 1)) (.step (.send (.ok []) (.register 1 none [])) .new)))), rfl, rfl, rfl, rfl⟩

private theorem requests (n : Nat) : ∃ h s, Hist h s ∧ Idle h ∧ (∀ k, k < n → (s .subscribe k).isSome = true ∧ (s .unsubscribe k).isSome = true ∧ (s .unregister k).isSome = true) ∧
   (∀ k, s .subscriptions k = none ∧ s .registrations k = none) := by
  induction n with
  | zero => exact ⟨_, _, .new, fun _ => ⟨rfl, rfl, rfl, rfl, rfl, rfl⟩, fun k hk => by omega, fun k => ⟨rfl, rfl⟩⟩
  | succ n ih =>
    obtain ⟨h, s, hh, hi, hk, h0⟩ := ih
    have H := Hist.step (.recv (.unregistered n)) (.step (.send (.ok []) (.unregister n 1)) (.step (.recv (.registered n 1)) (.step (.send (.ok []) (.register n none []))
      (.step (.recv (.unsubscribed n)) (.step (.send (.ok []) (.unsubscribe n 1)) (.step (.recv (.subscribed n 1)) (.step (.send (.ok []) (.subscribe n none [])) hh)))))))
    refine ⟨_, _, H, ?_, ?_, ?_⟩
    · intro k
      obtain ⟨i1, i2, i3, i4, i5, i6⟩ := hi k
      simp [Op.prog, go_run, send, recv, Prog.run, put_apply, okB, since, subscribeSent, subscribeSettled, subscribedGot, errorGot, unsubscribeSent, unsubscribeSettled,
        registerSent, registerSettled, registeredGot, unregisterSent, unregisterSettled, subscribed, registered, unregisterAsked, unsubscribeAsked, i1, i2, i3, i4, i5, i6]
    · intro k hk'
      simp only [Op.prog, go_run, send, recv, Prog.run, put_apply, set_flip, reduceCtorEq, if_true, if_false, isSome_set]
      by_cases e : n = k
      · simp [e]
      · obtain ⟨a, b, c⟩ := hk k (by omega)
        simp [a, b, c]
    · intro k
      simp [Op.prog, go_run, send, recv, Prog.run, put_apply, okB, set_flip, del_flip, h0 k]

/-- The IDs of settled SUBSCRIBE, UNSUBSCRIBE and UNREGISTER requests are kept. -/
theorem C144_requests_kept (n : Nat) : ∃ h s, Hist h s ∧ Idle h ∧ Fills (s .subscribe) n ∧ Fills (s .unsubscribe) n ∧ Fills (s .unregister) n := by
  obtain ⟨h, s, hh, hi, hk, -⟩ := requests n
  have : ∀ t, (∀ k, k < n → (s t k).isSome = true) → Fills (s t) n := fun t ht =>
    ⟨List.range n, List.nodup_range, List.length_range, fun k hk => ht k (List.mem_range.1 hk)⟩
  exact ⟨h, s, hh, hi, this _ fun k h => (hk k h).1, this _ fun k h => (hk k h).2.1, this _ fun k h => (hk k h).2.2⟩

end Session
end Wamp
