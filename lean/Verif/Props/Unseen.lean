import Verif.Spec.Unseen
import Verif.Props.AsNewDealer
/-!
# C148, C149: publications and calls go unnoticed by those they do not concern
-/
namespace Wamp

theorem skip_inj (i : Nat) : ∀ x y, skip i x = skip i y → x = y := by
  intro x y h
  simp only [skip] at h
  split at h <;> split at h <;> omega

theorem skip_lt {i j : Nat} (h : j < i) : skip i j = j := if_pos h
theorem skip_ge {i j : Nat} (h : i ≤ j) : skip i j = j + 1 := if_neg (by omega)
theorem skip_ne (i j : Nat) : skip i j ≠ i := by simp only [skip]; split <;> omega

namespace AMap
variable {K V L W : Type} [DecidableEq K] [DecidableEq L]

omit [DecidableEq K] in
theorem remap_same {f : K → K} {m : AMap K V} (h : ∀ k ∈ m.keys, f k = k) : m.remap f (fun x => x) = m := by
  induction m with
  | nil => rfl
  | cons x m ih =>
    show (f x.1, x.2) :: remap f (fun x => x) m = x :: m
    rw [ih fun k hk => h k (List.mem_cons_of_mem _ hk), h x.1 List.mem_cons_self]

omit [DecidableEq K] in
theorem remap_id {m : AMap K V} : m.remap id (fun x => x) = m := remap_same fun _ _ => rfl

end AMap

namespace Broker
variable {w : Str → Str → Bool}

/-- Objects keep their IDs and none is added. -/
def SameIDs (a a' : State) : Prop := a'.next = a.next ∧ a'.idGen = a.idGen ∧ ∀ p, (a'.heap p).id = (a.heap p).id

theorem hset_id {m : Nat → Sub} {p : Nat} {x : Sub} (hx : x.id = (m p).id) (q : Nat) : (Wamp.hset m p x q).id = (m q).id := by
  simp only [Wamp.hset]
  split
  · rename_i e; rw [hx, e]
  · rfl

theorem removeLoop_ids {s : Nat} : ∀ {ps : List Nat} {a a' : State}, removeLoop s a ps = .ok a' → SameIDs a a'
  | [], _, _, h => by cases h; exact ⟨rfl, rfl, fun _ => rfl⟩
  | p :: ps, a, a', h => by
    simp only [removeLoop] at h
    cases hs : removeStep s a p with
    | ok x =>
      rw [hs] at h
      obtain ⟨h1, h2, h3⟩ := removeLoop_ids h
      simp only [removeStep] at hs
      split at hs
      · cases hs
      · cases hs
        exact ⟨h1, h2, fun q => (h3 q).trans (hset_id (by rfl) q)⟩
    | err => rw [hs] at h; cases h
    | panic => rw [hs] at h; cases h

theorem step_objects {b : State} (hi : ∀ a < b.next, (b.heap a).id ≤ b.idGen) (hg : b.idGen < maxID) (op : Op) :
    ∀ a < (step w b op).1.next, ((step w b op).1.heap a).id ≤ (step w b op).1.idGen := by
  cases op with
  | add x => simp only [step, addSession]; split <;> exact hi
  | has t => exact hi
  | disclose on => exact hi
  | remove s order =>
    simp only [step, removeSession]
    split
    · exact hi
    · split
      · rename_i hl
        obtain ⟨h1, h2, h3⟩ := removeLoop_ids hl
        intro a ha
        show (_ : Sub).id ≤ _
        rw [h3 a]
        refine Nat.le_trans (hi a ?_) (Nat.le_of_eq h2.symm)
        exact h1 ▸ ha
      · exact hi
      · exact hi
  | publish s q o t x k wo so =>
    simp only [step, publish, nextID_small hg]
    have : ∀ a < b.next, (b.heap a).id ≤ b.idGen + 1 := fun a ha => Nat.le_succ_of_le (hi a ha)
    split
    · exact hi
    · split
      · exact this
      · split
        · exact this
        · split <;> exact this
  | receive s m =>
    cases m with
    | subscribe r o t =>
      simp only [step, receive, subscribe, nextID_small hg]
      split
      · exact hi
      · split
        · intro a ha
          show (Wamp.hset _ _ _ _ : Sub).id ≤ _
          rw [hset_id (by rfl)]; exact hi a ha
        · intro a ha
          show (Wamp.hset _ _ _ _ : Sub).id ≤ b.idGen + 1
          simp only [Wamp.hset]
          split
          · exact Nat.le_refl _
          · exact Nat.le_succ_of_le (hi a (by have : a < b.next + 1 := ha; omega))
    | unsubscribe r i =>
      simp only [step, receive, unsubscribe]
      split
      · exact hi
      · split
        · exact hi
        · intro a ha
          show (Wamp.hset _ _ _ _ : Sub).id ≤ _
          rw [hset_id (by rfl)]; exact hi a ha
    | _ => exact hi

/-- No object has an ID that is still to be given out. -/
theorem hist_objects {h : List Event} {b : State} (hh : Hist w h b) (hlen : h.length ≤ 2 ^ 53) : ∀ a < b.next, (b.heap a).id ≤ b.idGen := by
  induction hh with
  | new => intro a ha; exact absurd ha (Nat.not_lt_zero a)
  | @step h b op hh ih =>
    simp only [List.length_cons] at hlen
    refine step_objects (ih (by omega)) ?_ op
    have := (hist_inv hh (by show _ ≤ 2 ^ 53; omega)).gen
    show _ < 2 ^ 53
    omega

/-- After a publication the broker is as before, except that one ID is gone. -/
theorem alike_publish {h : List Event} {b : State} (hh : Hist w h b) (hlen : h.length < 2 ^ 53) {s : Nat} (ha : attached h s) (q : Nat) (o : GoMap) (t : Str)
    (x : GoSlice) (k : GoMap) (wo : List Str) (so : List Nat) :
    Alike (skip (b.idGen + 1)) 0 b (step w b (.publish s q o t x k wo so)).1 := by
  have hi := hist_inv hh (by show _ ≤ 2 ^ 53; omega)
  have hg : b.idGen < maxID := by have := hi.gen; show _ < 2 ^ 53; omega
  have hst : (step w b (.publish s q o t x k wo so)).1 = { b with idGen := b.idGen + 1 } := by
    simp only [step, publish, nextID_small hg]
    have hb : (b.bySession s).isSome = true := by rw [hi.bys]; exact ha
    split
    · rename_i e; rw [e] at hb; cases hb
    · split
      · rfl
      · split
        · rfl
        · split <;> rfl
  rw [hst]
  have hsome : ∀ {y : Option Nat}, y.map (· + 0) = y := fun {y} => by cases y <;> rfl
  have hsb : ∀ s m i p, b.bySession s = some m → m.get i = some p → p < b.next := by
    intro s m i p h1 h2
    exact (hi.top _ p (hi.ses s m i p h1 h2).1).2.1
  refine { heap := ?_, next := rfl, top := fun t => hsome.symm, bys := ?_, sess := rfl, tree := ?_, wc := ?_, det := rfl, gen := ?_
           le := Nat.le_succ _, inj := skip_inj _, tb := fun t p hp => (hi.top t p hp).2.1, sb := hsb
           rb := fun t p hp => (hi.top t p ((hi.tre t p).1 hp).1).2.1, wb := fun t p hp => (hi.top t p ((hi.wcs t p).1 hp).1).2.1 }
  · intro p hp
    show b.heap p = Sub.shift _ (b.heap p)
    rw [Sub.shift, skip_lt (Nat.lt_succ_of_le (hist_objects hh (by omega) p hp))]
  · intro s'
    show b.bySession s' = _
    cases hs : b.bySession s' with
    | none => rfl
    | some m =>
      show some m = some _
      refine congrArg some (AMap.remap_same ?_).symm
      intro i hm
      obtain ⟨p, hp⟩ := Option.isSome_iff_exists.1 ((AMap.mem_keys m i).1 hm)
      obtain ⟨h1, h2, -⟩ := hi.ses s' m i p hs hp
      exact skip_lt (Nat.lt_succ_of_le (h2 ▸ (hi.top _ p h1).2.2.2.2.2))
  · exact AMap.remap_id.symm
  · exact AMap.remap_id.symm
  · intro j
    show skip _ (b.idGen + 1 + j) = b.idGen + 1 + 1 + j
    rw [skip_ge (by omega)]; omega

/-- **C148** A publication by an attached session leaves nothing behind: take any history and whatever calls are made afterwards.  If a
publication is inserted before those calls, they get the same answers as without it (the same EVENTs for the same recipients, the same
acknowledgements, the same errors), except that the IDs given out after the publication are larger by one.  The IDs of subscriptions that
exist at that time stay as they are. -/
theorem C148_publication {h : List Event} {b : State} (hh : Hist w h b) {s : Nat} (ha : attached h s) (q : Nat) (o : GoMap) (t : Str)
    (x : GoSlice) (k : GoMap) (wo : List Str) (so : List Nat) :
    ∃ i, (∀ s' t' j, current h s' t' = some j → h.length < 2 ^ 53 → skip i j = j) ∧
      ∀ ops : List Op, h.length + 1 + ops.length ≤ 2 ^ 53 →
        replies w (step w b (.publish s q o t x k wo so)).1 (ops.map (renameOp (skip i))) =
          (replies w b ops).map (Res.map (renameOut (skip i))) := by
  refine ⟨b.idGen + 1, ?_, ?_⟩
  · intro s' t' j hj hlen
    have hi := hist_inv hh (by show _ ≤ 2 ^ 53; omega)
    obtain ⟨a, h1, h2, -⟩ := (hi.cur s' t' j).1 hj
    exact skip_lt (Nat.lt_succ_of_le (h2 ▸ (hi.top _ a h1).2.2.2.2.2))
  · intro ops hlen
    exact alike_replies (hh.step _) (alike_publish hh (by omega) ha q o t x k wo so) ops (by simp only [List.length_cons]; omega)

/-- Sessions 1 and 2 are subscribed. -/
def scene : List Op := [.add (who 1), .add (who 2), subWith 1 "a" "prefix", sub 2 "t"]

example : attached (exec noWild ([], init) scene).1 1 ∧ current (exec noWild ([], init) scene).1 2 (str "t") = some 2 ∧
    (replies noWild (exec noWild ([], init) scene).2 ([pub 1 "t", sub 1 "u", pub 2 "u", .receive 1 (.unsubscribe 5 4), pub 2 "ab"])).map ids =
      [[2, 3, 2], [4], [4, 5, 1], [], [1, 6, 1]] ∧
    (replies noWild (step noWild (exec noWild ([], init) scene).2 (pub 1 "ab")).1
      ([pub 1 "t", sub 1 "u", pub 2 "u", .receive 1 (.unsubscribe 5 4), pub 2 "ab"].map (renameOp (skip 3)))).map ids =
      [[2, 4, 2], [5], [5, 6, 1], [], [1, 7, 1]] := by
  refine ⟨rfl, by decide +kernel, by decide +kernel, by decide +kernel⟩

end Broker
end Wamp

namespace Wamp.Dealer
variable {w : Str → Str → Bool}

/-- Objects keep their IDs and policies and none is added. -/
def SamePolicies (a a' : State) : Prop :=
  a'.next = a.next ∧ ∀ p, (a'.heap p).id = (a.heap p).id ∧ (a'.heap p).policy = (a.heap p).policy

theorem SamePolicies.rfl' {a : State} : SamePolicies a a := ⟨rfl, fun _ => ⟨rfl, rfl⟩⟩

theorem hset_policy {m : Nat → Reg} {p : Nat} {x : Reg} (hx : x.id = (m p).id) (hy : x.policy = (m p).policy) (q : Nat) :
    (Wamp.hset m p x q).id = (m q).id ∧ (Wamp.hset m p x q).policy = (m q).policy := by
  simp only [Wamp.hset]
  split
  · rename_i e; rw [hx, hy, e]; exact ⟨rfl, rfl⟩
  · exact ⟨rfl, rfl⟩

theorem removeLoop_policies {s : Nat} : ∀ {ps : List Nat} {a a' : State}, removeLoop s a ps = .ok a' → SamePolicies a a'
  | [], _, _, h => by cases h; exact .rfl'
  | p :: ps, a, a', h => by
    simp only [removeLoop] at h
    cases hs : removeStep s a p with
    | ok x =>
      rw [hs] at h
      obtain ⟨h1, h3⟩ := removeLoop_policies h
      simp only [removeStep] at hs
      split at hs
      · cases hs; exact ⟨h1, h3⟩
      · cases hc : surgery s (a.heap _).callees.length 0 (a.heap _).callees (a.heap _).callees.length with
        | ok cs =>
          rw [hc] at hs; cases hs
          refine ⟨h1, fun q => ?_⟩
          exact ⟨(h3 q).1.trans (hset_policy (by rfl) (by rfl) q).1, (h3 q).2.trans (hset_policy (by rfl) (by rfl) q).2⟩
        | err => rw [hc] at hs; cases hs
        | panic => rw [hc] at hs; cases hs
    | err => rw [hs] at h; cases h
    | panic => rw [hs] at h; cases h

/-- Only a REGISTER makes a new registration, and it has the policy that was asked for. -/
theorem step_policies (b : State) (op : Op) :
    SamePolicies b (step w b op).1 ∨
    ∃ s q o p order rnd i, op = .receive s (.register q o p) order rnd ∧ (step w b op).2 = .ok (.msg (.registered q i) s) ∧
      (step w b op).1.next = b.next + 1 ∧
      ((step w b op).1.heap b.next).id = i ∧ ((step w b op).1.heap b.next).policy = o.text (str "invoke") ∧
      ∀ a < b.next, (step w b op).1.heap a = b.heap a := by
  cases op with
  | add x => refine .inl ?_; simp only [step, addSession]; split <;> exact .rfl'
  | has t => exact .inl .rfl'
  | disclose on => exact .inl .rfl'
  | remove x order =>
    refine .inl ?_
    simp only [step, removeSession]
    split
    · exact .rfl'
    · split
      · rename_i h
        obtain ⟨h1, h2⟩ := removeLoop_policies h
        exact ⟨h1, h2⟩
      · exact .rfl'
      · exact .rfl'
  | receive x m order rnd =>
    cases m with
    | call q o p a k bin =>
      refine .inl ?_
      simp only [step, receive, call]
      split
      · exact .rfl'
      · split
        · exact .rfl'
        · split
          · exact .rfl'
          · exact .rfl'
          · split
            · exact ⟨rfl, hset_policy rfl rfl⟩
            · split
              · exact ⟨rfl, hset_policy rfl rfl⟩
              · split <;> exact ⟨rfl, hset_policy rfl rfl⟩
    | yield i o a k bin =>
      refine .inl ?_
      simp only [step, receive, yield]
      split
      · exact .rfl'
      · split
        · simp only; split <;> exact .rfl'
        · split
          · simp only; split <;> exact .rfl'
          · simp only; split <;> exact .rfl'
    | register q o p =>
      simp only [step, receive, register]
      split
      · exact .inl .rfl'
      · split
        · refine .inl ?_
          split
          · exact .rfl'
          · exact ⟨rfl, hset_policy rfl rfl⟩
        · refine .inr ⟨x, q, o, p, order, rnd, _, rfl, rfl, rfl, ?_, ?_, ?_⟩
          · simp only [Wamp.hset, if_true]
          · simp only [Wamp.hset, if_true]; rfl
          · intro a ha
            simp only [Wamp.hset, if_neg (Nat.ne_of_lt ha)]
    | unregister q i =>
      refine .inl ?_
      simp only [step, receive, unregister]
      split
      · exact .rfl'
      · split
        · exact .rfl'
        · split
          · exact .rfl'
          · simp only; split <;> exact ⟨rfl, hset_policy rfl rfl⟩
    | error t i d u a k =>
      refine .inl ?_
      simp only [step, receive, error]
      split
      · exact .rfl'
      · split <;> exact .rfl'
    | _ => exact .inl .rfl'

theorem hist_policies {h : List Event} {b : State} (hh : Hist w h b) :
    ∀ a < b.next, ∃ e ∈ h, ∃ s q o p order rnd, e = ⟨.receive s (.register q o p) order rnd, .ok (.msg (.registered q (b.heap a).id) s)⟩ ∧
      (b.heap a).policy = o.text (str "invoke") := by
  induction hh with
  | new => intro a ha; exact absurd ha (Nat.not_lt_zero a)
  | @step h b op hh hnp ih =>
    intro a ha
    rcases step_policies (w := w) b op with ⟨h1, h2⟩ | ⟨s, q, o, p, order, rnd, i, h1, h2, h3, h4, h5, h6⟩
    · obtain ⟨e, he, s, q, o, p, order, rnd, h4, h5⟩ := ih a (h1 ▸ ha)
      exact ⟨e, List.mem_cons_of_mem _ he, s, q, o, p, order, rnd, (h2 a).1 ▸ h4, (h2 a).2 ▸ h5⟩
    · by_cases hab : a = b.next
      · subst hab
        exact ⟨_, List.mem_cons_self, s, q, o, p, order, rnd, by rw [h4, h2, h1], h5⟩
      · have hlt : a < b.next := by rw [h3] at ha; omega
        rw [h6 a hlt]
        obtain ⟨e, he, h4⟩ := ih a hlt
        exact ⟨e, List.mem_cons_of_mem _ he, h4⟩

theorem pick_turn {g : Reg} {rnd callee nc : Nat} (h : pick g rnd = .ok (callee, nc)) (hp : g.policy ≠ str "roundrobin") : nc = g.nextCallee := by
  simp only [pick] at h
  split at h
  · split at h
    · cases h; rfl
    · split at h
      · cases h; rfl
      · split at h
        · rename_i e; exact absurd e hp
        · split at h <;> (cases h; rfl)
  · split at h
    · cases h
    · cases h; rfl

variable {h : List Event} {b b' : State}

/-- After a CALL that became an INVOCATION the dealer is as before, except that one ID is gone and that it remembers the call. -/
theorem alike_call (hh : Hist w h b) (hlen : h.length < 2 ^ 53) {s r : Nat} {o : GoMap} {p : Str} {x : GoSlice} {k : GoMap} {bin : Bin}
    {order : List Str} {rnd i g callee : Nat} {d : GoMap} {x' : GoSlice} {k' : GoMap} {bin' : Bin}
    (hf : forward h (.receive s (.call r o p x k bin) order rnd))
    (hc : step w b (.receive s (.call r o p x k bin) order rnd) = (b', .ok (.msg (.invocation i g d x' k' bin') callee)))
    (hg : noTurns h g) (res : Res Out) :
    i = b.idGen + 1 ∧ Alike (fun y => ∃ e ∈ [(⟨.receive s (.call r o p x k bin) order rnd, res⟩ : Event)], called y.1 y.2 e = true) (skip i) 0 b b' := by
  have hR := hist_rinv hh (by show _ ≤ 2 ^ 53; omega)
  have hC := hist_cinv hh (by show _ ≤ 2 ^ 53; omega)
  have hgen : b.idGen < maxID := by have := hR.gen; show _ < 2 ^ 53; omega
  have hfresh : ((b.invByCall (s, r)).isNone || !o.flag optProgress) = true := by
    cases hp : o.flag optProgress with
    | false => simp
    | true => rw [hist_invByCall hh s r (hf hp)]; rfl
  simp only [step, receive, call] at hc
  split at hc
  · cases hc
  · rename_i a hl
    split at hc
    · cases hc
    · split at hc
      · cases hc
      · cases hc
      · rename_i c nc hpick
        simp only [nextID_small hgen] at hc
        have hfin : ∃ d, b' = { b with
              heap := Wamp.hset b.heap a { b.heap a with nextCallee := nc }
              idGen := b.idGen + 1
              pending := b.pending.set (b.idGen + 1) ⟨r, s, c, o.flag optProgress, o.flag optReceiveProgress⟩
              invByCall := b.invByCall.set (s, r) (b.idGen + 1) } ∧ i = b.idGen + 1 ∧ g = (b.heap a).id ∧ d = () := by
          split at hc
          · cases hc
          · split at hc
            · cases hc
            · split at hc <;> (cases hc; exact ⟨(), rfl, rfl, rfl, rfl⟩)
        obtain ⟨-, rfl, rfl, rfl, -⟩ := hfin
        clear hc
        have ha : a < b.next := by
          simp only [lookup] at hl
          split at hl
          · rename_i a' hb
            split at hl
            · split at hl
              · rename_i q hq; cases hl
                obtain ⟨t, -, ht, -⟩ := longestPrefix_some hq
                exact (hR.trp _ _ ht).1
              · cases hl; exact (hR.byp _ _ hb).1
            · cases hl; exact (hR.byp _ _ hb).1
          · split at hl
            · rename_i q hq; cases hl
              obtain ⟨t, -, ht, -⟩ := longestPrefix_some hq
              exact (hR.trp _ _ ht).1
            · obtain ⟨t, -, ht⟩ := firstWildcard_some hl
              exact (hR.wcp _ _ ht).1
        have hnc : nc = (b.heap a).nextCallee := by
          refine pick_turn hpick ?_
          obtain ⟨e, he, s, q, o, p, order, rnd, h1, h2⟩ := hist_policies hh a ha
          rw [h2]
          exact hg e he s q o p order rnd q s h1
        have hheap : Wamp.hset b.heap a { b.heap a with nextCallee := nc } = b.heap := by
          funext q
          simp only [Wamp.hset, hnc]
          split
          · rename_i e; rw [e]
          · rfl
        rw [hheap]
        refine ⟨rfl, ?_⟩
        have hsome : ∀ {y : Option Nat}, y.map (· + 0) = y := fun {y} => by cases y <;> rfl
        refine { heap := ?_, next := rfl, proc := fun _ => hsome.symm, bys := ?_, sess := rfl, tree := AMap.remap_id.symm, wc := AMap.remap_id.symm
                 pen := ?_, ibc := ?_, ibp := ?_, det := rfl, gen := ?_, le := Nat.le_succ _, inj := skip_inj _
                 tb := fun t p hp => (hR.byp t p hp).1, sb := fun s m i p h1 h2 => (hR.sesp s m i p h1 h2).1
                 rb := fun t p hp => (hR.trp t p hp).1, wb := fun t p hp => (hR.wcp t p hp).1 }
        · intro p hp
          show b.heap p = Reg.shift _ (b.heap p)
          rw [Reg.shift, skip_lt (Nat.lt_succ_of_le (hR.obj p hp).2)]
        · intro s'
          show b.bySession s' = _
          cases hs : b.bySession s' with
          | none => rfl
          | some m =>
            show some m = some _
            refine congrArg some (AMap.remap_same ?_).symm
            intro i hm
            obtain ⟨p, hp⟩ := Option.isSome_iff_exists.1 ((AMap.mem_keys m i).1 hm)
            obtain ⟨h1, h2⟩ := hR.sesp s' m i p hs hp
            exact skip_lt (Nat.lt_succ_of_le (h2 ▸ (hR.obj p h1).2))
        · intro j hj
          show AMap.get (AMap.set _ _ _) _ = _
          rw [AMap.get_set, if_neg (skip_ne _ _)]
          by_cases hlt : j < b.idGen + 1
          · rw [skip_lt hlt]
          · rw [skip_ge (by omega)]
            have none_of : ∀ j, b.idGen < j → b.pending.get j = none := by
              intro j hj
              cases hp : b.pending.get j with
              | none => rfl
              | some p => have := (hC.pen j p hp).2.1; omega
            rw [none_of _ (by omega), none_of _ (by omega)]
        · intro y hy
          have hne : y ≠ (s, r) := by
            rintro rfl
            exact hy ⟨_, List.mem_cons_self, by simp [called]⟩
          show FMap.set _ _ _ y = _
          rw [FMap.set_other _ _ hne]
          cases hi : b.invByCall y with
          | none => rfl
          | some j =>
            have := (hC.ibc y.1 y.2 j hi).2.1
            show some j = some _
            rw [skip_lt (by omega)]
        · intro y j _ hi
          exact (hC.ibc y.1 y.2 j hi).1
        · intro j
          show skip _ (b.idGen + 1 + j) = b.idGen + 1 + 1 + j
          rw [skip_ge (by omega)]; omega

variable {P : Nat × Nat → Prop}

/-- Answers for an invocation that the other dealer does not have change nothing. -/
theorem Alike.extra {i : Nat} {a : State} (ha : Alike P (skip i) 0 a b) (op : Op) (hop : answerFor i ⟨op, .err⟩ = true) :
    Alike P (skip i) 0 a (Dealer.step w b op).1 ∧ (Dealer.step w b op).2 ≠ .panic := by
  have hdel : Alike P (skip i) 0 a { b with pending := b.pending.del i } := by
    refine { ha with pen := ?_ }
    intro j hj
    show AMap.get (AMap.del _ _) _ = _
    rw [AMap.get_del, if_neg (skip_ne _ _)]
    exact ha.pen j hj
  cases op with
  | receive s m order rnd =>
    cases m with
    | yield j o x k bin =>
      simp only [answerFor, beq_iff_eq] at hop
      subst hop
      simp only [Dealer.step, receive, Dealer.yield]
      split
      · exact ⟨ha, by simp⟩
      · split
        · simp only; split
          · exact ⟨ha, by simp⟩
          · exact ⟨hdel, by simp⟩
        · split
          · simp only; split
            · exact ⟨ha, by simp⟩
            · exact ⟨hdel, by simp⟩
          · simp only; split
            · exact ⟨ha, by simp⟩
            · exact ⟨hdel, by simp⟩
    | error t j d u x k =>
      simp only [answerFor, Bool.and_eq_true, beq_iff_eq] at hop
      obtain ⟨-, rfl⟩ := hop
      simp only [Dealer.step, receive, Dealer.error]
      split
      · exact ⟨ha, by simp⟩
      · split
        · exact ⟨ha, by simp⟩
        · exact ⟨hdel, by simp⟩
    | _ => cases hop
  | _ => cases hop

theorem answerFor_rename (i : Nat) (op : Op) (r : Res Out) : answerFor i ⟨renameOp (skip i) op, r⟩ = false := by
  cases op with
  | receive s m order rnd =>
    cases m with
    | yield j o x k bin => simp only [renameOp, answerFor, beq_eq_false_iff_ne]; exact skip_ne i j
    | error t j d u x k =>
      simp only [renameOp, answerFor, Bool.and_eq_false_iff]
      exact .inr (beq_eq_false_iff_ne.2 (skip_ne i j))
    | _ => rfl
  | _ => rfl

theorem replies_extra {i : Nat} {h0 : List Event} (ops' : List Op) : ∀ {ops : List Op} {h : List Event} {a b : State}, Hist w h b →
    Alike (fun x => ∃ e ∈ h0, called x.1 x.2 e = true) (skip i) 0 a b →
    (ops'.filter fun op => !answerFor i ⟨op, .err⟩) = ops.map (renameOp (skip i)) → (∀ op ∈ ops, forward h0 op) →
    h.length + ops'.length ≤ 2 ^ 53 →
    repliesBut i w b ops' = (replies w a ops).map (Res.map (renameOut (skip i))) := by
  induction ops' with
  | nil =>
    intro ops h a b _ _ he _ _
    cases ops with
    | nil => rfl
    | cons op ops => cases he
  | cons op' ops' ih =>
    intro ops h a b hh ha he ho hlen
    simp only [List.length_cons] at hlen
    have hg : b.idGen < maxID := by
      have := (hist_rinv hh (by show _ ≤ 2 ^ 53; omega)).gen
      show _ < 2 ^ 53
      omega
    have hsame : ∀ r, answerFor i ⟨op', r⟩ = answerFor i ⟨op', .err⟩ := fun _ => rfl
    simp only [repliesBut]
    cases hx : answerFor i ⟨op', .err⟩ with
    | true =>
      rw [List.filter_cons_of_neg (by simp [hx])] at he
      obtain ⟨h1, h2⟩ := ha.extra (w := w) op' hx
      rw [hsame, hx, if_pos rfl, List.nil_append]
      have := ih (hh.step op' h2) h1 he ho (by simp only [List.length_cons]; omega)
      split
      · rename_i hp; exact absurd hp h2
      · exact this
    | false =>
      rw [List.filter_cons_of_pos (by simp [hx])] at he
      cases ops with
      | nil => cases he
      | cons op ops =>
        rw [List.map_cons, List.cons.injEq] at he
        obtain ⟨rfl, he⟩ := he
        obtain ⟨h1, h2⟩ := ha.step (w := w) hg op (ho op List.mem_cons_self)
        rw [hsame, hx, if_neg Bool.false_ne_true]
        simp only [replies, h2, List.map_cons, List.singleton_append]
        have next : (Dealer.step w b (renameOp (skip i) op)).2 ≠ .panic → _ :=
          fun hnp => ih (hh.step _ hnp) h1 he (fun op' h' => ho op' (List.mem_cons_of_mem _ h')) (by simp only [List.length_cons]; omega)
        cases hr : (Dealer.step w a op).2 with
        | panic => rfl
        | ok y => simp only [Res.map_ok]; rw [next (by rw [h2, hr]; exact fun e => by cases e)]
        | err => simp only [Res.map_err]; rw [next (by rw [h2, hr]; exact fun e => by cases e)]

/-- **C149** A CALL and its answers go unnoticed by the others: take any history, and then a CALL that becomes INVOCATION `i` (and does not
continue an earlier call) of a registration without the round-robin policy.  Take whatever calls `ops` are made otherwise, except parts of
that same CALL, and let YIELDs and ERRORs for `i` come at any time, any number of them.  Then all the others get the same
answers as without that CALL, except that the IDs given out after it are larger by one. -/
theorem C149_call (hh : Hist w h b) {s r : Nat} {o : GoMap} {p : Str} {x : GoSlice} {k : GoMap} {bin : Bin}
    {order : List Str} {rnd i g callee : Nat} {d : GoMap} {x' : GoSlice} {k' : GoMap} {bin' : Bin}
    (hf : forward h (.receive s (.call r o p x k bin) order rnd))
    (hc : step w b (.receive s (.call r o p x k bin) order rnd) = (b', .ok (.msg (.invocation i g d x' k' bin') callee)))
    (hg : noTurns h g) (ops ops' : List Op) (ho : ∀ op ∈ ops, forward [⟨.receive s (.call r o p x k bin) order rnd, .err⟩] op)
    (hops : (ops'.filter fun op => !answerFor i ⟨op, .err⟩) = ops.map (renameOp (skip i))) (hlen : h.length + 1 + ops'.length ≤ 2 ^ 53) :
    repliesBut i w b' ops' = (replies w b ops).map (Res.map (renameOut (skip i))) := by
  have hal := (alike_call hh (by omega) hf hc hg .err).2
  have hh' := hh.step (.receive s (.call r o p x k bin) order rnd) (by rw [hc]; simp)
  rw [hc] at hh'
  exact replies_extra ops' hh' hal hops ho (by simp only [List.length_cons]; omega)

theorem noTurns_of {h : List Event} (hc : (h.all fun e => match e.op with
    | .receive _ (.register _ o _) _ _ => o.text (str "invoke") != str "roundrobin"
    | _ => true) = true) (g : Nat) : noTurns h g := by
  intro e he s q o p order rnd q' s' hx
  have := List.all_eq_true.1 hc e he
  subst hx
  simpa using this

/-- Session 1 has registered "p" and is called by session 3. -/
def scene : List Op := [.add (who 1), .add (who 2), .add (who 3), reg 1 "p", callOf 3 7 "p"]

/-- What the others do meanwhile: session 1 answers session 3 (invocation 2), session 3 registers and is called. -/
def others : List Op := [yieldOf 1 2, reg 3 "q", callOf 1 1 "q", yieldOf 3 4, unreg 1 1, callOf 3 8 "p"]

/-- The same with the CALL of session 2 (invocation 3), which is answered twice in between. -/
def mixed : List Op := [yieldOf 1 2, yieldOf 1 3, reg 3 "q", callOf 1 1 "q", yieldOf 3 5, yieldOf 1 3, unreg 1 1, callOf 3 8 "p"]

example : ∃ h b b' o p x k bin order rnd d x' k' bin', Hist star h b ∧ forward h (.receive 2 (.call 5 o p x k bin) order rnd) ∧
    step star b (.receive 2 (.call 5 o p x k bin) order rnd) = (b', .ok (.msg (.invocation 3 1 d x' k' bin') 1)) ∧ noTurns h 1 ∧
    (∀ op ∈ others, forward [⟨.receive 2 (.call 5 o p x k bin) order rnd, .err⟩] op) ∧
    (mixed.filter fun op => !answerFor 3 ⟨op, .err⟩) = others.map (renameOp (skip 3)) ∧
    (replies star b others).map ids = [[], [3], [4, 3], [], [], []] ∧ (repliesBut 3 star b' mixed).map ids = [[], [4], [5, 4], [], [], []] := by
  refine ⟨_, _, _, none, str "p", none, none, Bin.none, [], 0, _, _, _, _, hist_run scene (by decide +kernel), ?_, rfl, noTurns_of (by decide +kernel) 1, ?_, rfl,
    by decide +kernel, by decide +kernel⟩
  · intro hx; exact absurd hx (by decide)
  · intro op hop
    simp only [others, List.mem_cons, List.not_mem_nil, or_false] at hop
    rcases hop with rfl | rfl | rfl | rfl | rfl | rfl
    · exact (by decide : 1 ≤ 2)
    · trivial
    · intro hx; exact absurd hx (by decide)
    · exact (by decide : 1 ≤ 4)
    · trivial
    · intro hx; exact absurd hx (by decide)

end Wamp.Dealer
