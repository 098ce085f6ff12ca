import Verif.Lemmas.Dealer
/-!
# Invariants about calls, invocations and answers
-/
namespace Wamp.Dealer

theorem resultFor_shape (r : Nat) (more : Bool) (args : GoSlice) (kwargs : GoMap) (bin : Bin) (c : SessionDetails) :
    ∃ d a k bin', resultFor r more args kwargs bin c = .result r d a k bin' ∧ d.flag (str "progress") = more ∧
      ((bin.binary && c.static) = true → bin' = ⟨true, bin.serializer, bin.payload⟩ ∧ a = none ∧ k = none) ∧
      ((bin.binary && c.static) = false → a = args ∧ k = kwargs ∧ bin' = Bin.none) := by
  simp only [resultFor, newResultBinary, newResult]
  cases hb : (bin.binary && c.static) with
  | true =>
    refine ⟨_, _, _, _, by rw [if_pos rfl], ?_, by simp, by simp⟩
    cases more <;> rfl
  | false =>
    refine ⟨_, _, _, _, by rw [if_neg (by simp)], ?_, by simp, by simp⟩
    cases more <;> rfl

theorem invocationFor_shape (b : State) (a inv sid : Nat) (o : GoMap) (p : Str) (args : GoSlice) (kwargs : GoMap) (bin : Bin)
    (c : SessionDetails) : ∃ d a' k bin', invocationFor b a inv sid o p args kwargs bin c = .invocation inv (b.heap a).id d a' k bin' := by
  simp only [invocationFor, newInvocationBinary, newInvocation]
  split
  · exact ⟨_, _, _, _, rfl⟩
  · exact ⟨_, _, _, _, rfl⟩

/-- Calls, invocations and answers. -/
structure CInv (h : List Event) (b : State) : Prop where
  invs : ∀ e ∈ h, ∀ c r i k, invoked c r i k e → 1 ≤ i ∧ i ≤ b.idGen ∧ ∀ a < b.next, (b.heap a).id ≠ i
  invu : ∀ e ∈ h, ∀ e' ∈ h, ∀ c r i k c' r' k', invoked c r i k e → invoked c' r' i k' e' → c = c' ∧ r = r'
  pen : ∀ i p, b.pending.get i = some p → 1 ≤ i ∧ i ≤ b.idGen ∧ (∀ a < b.next, (b.heap a).id ≠ i) ∧
    (∃ e ∈ h, ∃ o, isCall p.callerID p.requestID o e ∧ o.flag (str "receive_progress") = p.receiveProgress ∧
      (e.res = .err ∨ ∃ k, invoked p.callerID p.requestID i k e)) ∧
    ∀ e ∈ h, ∀ c r k, invoked c r i k e → c = p.callerID ∧ r = p.requestID
  ibc : ∀ c r i, b.invByCall (c, r) = some i → 1 ≤ i ∧ i ≤ b.idGen ∧ (∀ a < b.next, (b.heap a).id ≠ i) ∧
    (∀ e ∈ h, ∀ c' r' k, invoked c' r' i k e → c' = c ∧ r' = r) ∧
    (∀ p, b.pending.get i = some p → p.callerID = c ∧ p.requestID = r)
  ibi : ∀ x y i, b.invByCall x = some i → b.invByCall y = some i → x = y
  fin : ∀ i, h.countP (finalFor i) ≤ 1 ∧ ((∃ e ∈ h, finalFor i e = true) → i ≤ b.idGen ∧ b.pending.get i = none)
  kept : ∀ i, ((∃ e ∈ h, ∃ c r k, invoked c r i k e) ∨ ∃ x, b.invByCall x = some i) → (∀ e ∈ h, answerFor i e = false) → ∃ p, b.pending.get i = some p

theorem init_cinv : CInv [] init := by
  refine ⟨by simp, by simp, by simp [init, AMap.get], by simp [init], by simp [init], by simp, by simp [init]⟩

theorem finalFor_op {op : Op} {r : Res Out} {i : Nat} (h : finalFor i ⟨op, r⟩ = true) :
    (∃ s o a k bin order rnd, op = .receive s (.yield i o a k bin) order rnd) ∨
    (∃ s d u a k order rnd, op = .receive s (.error 68 i d u a k) order rnd) := by
  simp only [finalFor, Bool.and_eq_true, answerFor] at h
  obtain ⟨h, -⟩ := h
  split at h
  · simp only [beq_iff_eq] at h
    subst h
    exact .inl ⟨_, _, _, _, _, _, _, rfl⟩
  · simp only [Bool.and_eq_true, beq_iff_eq] at h
    obtain ⟨rfl, rfl⟩ := h
    exact .inr ⟨_, _, _, _, _, _, _, rfl⟩
  · cases h

theorem CInv.quiet {h : List Event} {b b' : State} (hr : RInv h b) (hi : CInv h b) {e : Event}
    (he : ∀ c r i k, ¬invoked c r i k e) (hf : ∀ i, finalFor i e = false)
    (hp : b'.pending = b.pending) (hc : b'.invByCall = b.invByCall) (hg : b.idGen ≤ b'.idGen)
    (ho : ∀ a < b'.next, (a < b.next ∧ (b'.heap a).id = (b.heap a).id) ∨ (b'.heap a).id = b.idGen + 1) : CInv (e :: h) b' := by
  have hobj : ∀ i ≤ b.idGen, (∀ a < b.next, (b.heap a).id ≠ i) → ∀ a < b'.next, (b'.heap a).id ≠ i := by
    intro i hle hne a ha
    rcases ho a ha with ⟨h1, h2⟩ | h2
    · rw [h2]; exact hne a h1
    · omega
  refine ⟨?_, ?_, ?_, ?_, ?_, ?_, ?_⟩
  · intro e' he' c r i k hv
    rcases List.mem_cons.1 he' with rfl | he'
    · exact (he _ _ _ _ hv).elim
    · obtain ⟨h1, h2, h3⟩ := hi.invs e' he' c r i k hv
      exact ⟨h1, by omega, hobj i h2 h3⟩
  · intro e1 h1 e2 h2 c r i k c' r' k' v1 v2
    rcases List.mem_cons.1 h1 with rfl | h1
    · exact (he _ _ _ _ v1).elim
    · rcases List.mem_cons.1 h2 with rfl | h2
      · exact (he _ _ _ _ v2).elim
      · exact hi.invu e1 h1 e2 h2 c r i k c' r' k' v1 v2
  · intro i p hpi
    rw [hp] at hpi
    obtain ⟨h1, h2, h3, ⟨e0, h4, h5⟩, h6⟩ := hi.pen i p hpi
    refine ⟨h1, by omega, hobj i h2 h3, ⟨e0, List.mem_cons_of_mem _ h4, h5⟩, ?_⟩
    intro e' he' c r k hv
    rcases List.mem_cons.1 he' with rfl | he'
    · exact (he _ _ _ _ hv).elim
    · exact h6 e' he' c r k hv
  · intro c r i hci
    rw [hc] at hci
    obtain ⟨h1, h2, h3, h4, h5⟩ := hi.ibc c r i hci
    refine ⟨h1, by omega, hobj i h2 h3, ?_, by rw [hp]; exact h5⟩
    intro e' he' c' r' k hv
    rcases List.mem_cons.1 he' with rfl | he'
    · exact (he _ _ _ _ hv).elim
    · exact h4 e' he' c' r' k hv
  · rw [hc]; exact hi.ibi
  · intro i
    rw [List.countP_cons, hf i, hp]
    simp only [Bool.false_eq_true, if_false, Nat.add_zero]
    refine ⟨(hi.fin i).1, ?_⟩
    rintro ⟨e', he', hfe⟩
    rcases List.mem_cons.1 he' with rfl | he'
    · rw [hf i] at hfe; cases hfe
    · obtain ⟨h1, h2⟩ := (hi.fin i).2 ⟨e', he', hfe⟩
      exact ⟨by omega, h2⟩
  · intro i hx hno
    rw [hp]
    rw [hc] at hx
    rcases hx with ⟨e', he', c, r, k, hv⟩ | hx
    · rcases List.mem_cons.1 he' with rfl | he'
      · exact (he _ _ _ _ hv).elim
      · exact hi.kept i (.inl ⟨e', he', c, r, k, hv⟩) fun e'' h'' => hno e'' (List.mem_cons_of_mem _ h'')
    · exact hi.kept i (.inr hx) fun e'' h'' => hno e'' (List.mem_cons_of_mem _ h'')

theorem not_invoked_of_op {op : Op} {res : Res Out} (h : ∀ s q o p a k bin order rnd, op ≠ .receive s (.call q o p a k bin) order rnd) :
    ∀ c r i k, ¬invoked c r i k ⟨op, res⟩ := by
  rintro c r i k ⟨o, p, a, k', bin, order, rnd, rid, d, a', k'', bin', he⟩
  injection he with h1 _
  exact h _ _ _ _ _ _ _ _ _ h1

theorem not_final_of_op {op : Op} {res : Res Out} (h1 : ∀ s i o a k bin order rnd, op ≠ .receive s (.yield i o a k bin) order rnd)
    (h2 : ∀ s t i d u a k order rnd, op ≠ .receive s (.error t i d u a k) order rnd) : ∀ i, finalFor i ⟨op, res⟩ = false := by
  intro i
  cases hf : finalFor i ⟨op, res⟩ with
  | false => rfl
  | true =>
    rcases finalFor_op hf with ⟨s, o, a, k, bin, order, rnd, e⟩ | ⟨s, d, u, a, k, order, rnd, e⟩
    · exact (h1 _ _ _ _ _ _ _ _ e).elim
    · exact (h2 _ _ _ _ _ _ _ _ _ e).elim

/-- An answered invocation. -/
theorem CInv.settle {h : List Event} {b : State} (hi : CInv h b) {e : Event} {i : Nat} {p : Pending} (hp : b.pending.get i = some p)
    (he : ∀ c r i k, ¬invoked c r i k e) (hf : ∀ j, finalFor j e = true → j = i) (ha : answerFor i e = true) :
    CInv (e :: h) { b with pending := b.pending.del i } := by
  have hdel : ∀ j q, (b.pending.del i).get j = some q → b.pending.get j = some q := by
    intro j q hj
    rw [AMap.get_del] at hj
    split at hj
    · cases hj
    · exact hj
  refine ⟨?_, ?_, ?_, ?_, hi.ibi, ?_, ?_⟩
  · intro e' he' c r j k hv
    rcases List.mem_cons.1 he' with rfl | he'
    · exact (he _ _ _ _ hv).elim
    · exact hi.invs e' he' c r j k hv
  · intro e1 h1 e2 h2 c r j k c' r' k' v1 v2
    rcases List.mem_cons.1 h1 with rfl | h1
    · exact (he _ _ _ _ v1).elim
    · rcases List.mem_cons.1 h2 with rfl | h2
      · exact (he _ _ _ _ v2).elim
      · exact hi.invu e1 h1 e2 h2 c r j k c' r' k' v1 v2
  · intro j q hq
    obtain ⟨h1, h2, h3, ⟨e0, h4, h5⟩, h6⟩ := hi.pen j q (hdel j q hq)
    refine ⟨h1, h2, h3, ⟨e0, List.mem_cons_of_mem _ h4, h5⟩, ?_⟩
    intro e' he' c r k hv
    rcases List.mem_cons.1 he' with rfl | he'
    · exact (he _ _ _ _ hv).elim
    · exact h6 e' he' c r k hv
  · intro c r j hci
    obtain ⟨h1, h2, h3, h4, h5⟩ := hi.ibc c r j hci
    refine ⟨h1, h2, h3, ?_, fun q hq => h5 q (hdel j q hq)⟩
    intro e' he' c' r' k hv
    rcases List.mem_cons.1 he' with rfl | he'
    · exact (he _ _ _ _ hv).elim
    · exact h4 e' he' c' r' k hv
  · intro j
    rw [List.countP_cons]
    constructor
    · split
      · rename_i hj
        have := hf j hj
        subst this
        have h0 : h.countP (finalFor j) = 0 := by
          rw [List.countP_eq_zero]
          intro e' he' hfe
          have := ((hi.fin j).2 ⟨e', he', hfe⟩).2
          rw [hp] at this; cases this
        omega
      · exact (hi.fin j).1
    · rintro ⟨e', he', hfe⟩
      simp only [AMap.get_del]
      rcases List.mem_cons.1 he' with rfl | he'
      · have := hf j hfe
        subst this
        exact ⟨(hi.pen j p hp).2.1, by simp⟩
      · obtain ⟨h1, h2⟩ := (hi.fin j).2 ⟨e', he', hfe⟩
        exact ⟨h1, by split <;> simp [h2]⟩
  · intro j hx hno
    simp only [AMap.get_del]
    have hx' : (∃ e ∈ h, ∃ c r k, invoked c r j k e) ∨ ∃ x, b.invByCall x = some j := by
      rcases hx with ⟨e', he', c, r, k, hv⟩ | hx
      · rcases List.mem_cons.1 he' with rfl | he'
        · exact (he _ _ _ _ hv).elim
        · exact .inl ⟨e', he', c, r, k, hv⟩
      · exact .inr hx
    · obtain ⟨q, hq⟩ := hi.kept j hx' fun e'' h'' => hno e'' (List.mem_cons_of_mem _ h'')
      split
      · rename_i hj
        subst hj
        have := hno e (List.mem_cons_self ..)
        rw [ha] at this; cases this
      · exact ⟨q, hq⟩

/-- A CALL forwarded under a new ID. -/
theorem CInv.fresh {h : List Event} {b : State} (hr : RInv h b) (hi : CInv h b) {e : Event} {c r k : Nat} {o : GoMap} {nc a : Nat}
    (prog : Bool) (hcall : isCall c r o e) (hres : e.res = .err ∨ invoked c r (b.idGen + 1) k e)
    (hv : ∀ c' r' i k', invoked c' r' i k' e → c' = c ∧ r' = r ∧ i = b.idGen + 1) (hf : ∀ i, finalFor i e = false) :
    CInv (e :: h) { b with
      heap := hset b.heap a { b.heap a with nextCallee := nc }
      idGen := b.idGen + 1
      pending := b.pending.set (b.idGen + 1) ⟨r, c, k, prog, o.flag optReceiveProgress⟩
      invByCall := b.invByCall.set (c, r) (b.idGen + 1) } := by
  have hid : ∀ a', (hset b.heap a { b.heap a with nextCallee := nc } a').id = (b.heap a').id := fun a' => (hset_next b a nc a').1
  have hnew : ∀ a < b.next, (b.heap a).id ≠ b.idGen + 1 := by
    intro a ha; have := (hr.obj a ha).2; omega
  refine ⟨?_, ?_, ?_, ?_, ?_, ?_, ?_⟩
  · intro e' he' c' r' i k' hv'
    simp only [hid]
    rcases List.mem_cons.1 he' with rfl | he'
    · obtain ⟨-, -, rfl⟩ := hv _ _ _ _ hv'
      exact ⟨by omega, Nat.le_refl _, hnew⟩
    · obtain ⟨h1, h2, h3⟩ := hi.invs e' he' c' r' i k' hv'
      exact ⟨h1, by omega, h3⟩
  · intro e1 h1 e2 h2 c1 r1 i k1 c2 r2 k2 v1 v2
    rcases List.mem_cons.1 h1 with g1 | g1 <;> rcases List.mem_cons.1 h2 with g2 | g2
    · subst g1 g2
      obtain ⟨q1, q2, -⟩ := hv _ _ _ _ v1
      obtain ⟨q3, q4, -⟩ := hv _ _ _ _ v2
      exact ⟨q1.trans q3.symm, q2.trans q4.symm⟩
    · subst g1
      obtain ⟨-, -, rfl⟩ := hv _ _ _ _ v1
      have := (hi.invs e2 g2 _ _ _ _ v2).2.1; omega
    · subst g2
      obtain ⟨-, -, rfl⟩ := hv _ _ _ _ v2
      have := (hi.invs e1 g1 _ _ _ _ v1).2.1; omega
    · exact hi.invu e1 g1 e2 g2 c1 r1 i k1 c2 r2 k2 v1 v2
  · intro i p hp
    simp only [hid]
    simp only [AMap.get_set] at hp
    split at hp
    · rename_i hii
      subst hii
      cases hp
      refine ⟨by omega, Nat.le_refl _, hnew, ⟨e, List.mem_cons_self .., o, hcall, rfl, ?_⟩, ?_⟩
      · rcases hres with h | h
        · exact .inl h
        · exact .inr ⟨k, h⟩
      · intro e' he' c' r' k' hv'
        rcases List.mem_cons.1 he' with rfl | he'
        · obtain ⟨q1, q2, -⟩ := hv _ _ _ _ hv'; exact ⟨q1, q2⟩
        · have := (hi.invs e' he' _ _ _ _ hv').2.1; omega
    · obtain ⟨h1, h2, h3, ⟨e0, h4, h5⟩, h6⟩ := hi.pen i p hp
      refine ⟨h1, by omega, h3, ⟨e0, List.mem_cons_of_mem _ h4, h5⟩, ?_⟩
      intro e' he' c' r' k' hv'
      rcases List.mem_cons.1 he' with rfl | he'
      · obtain ⟨-, -, rfl⟩ := hv _ _ _ _ hv'; omega
      · exact h6 e' he' c' r' k' hv'
  · intro c' r' i hci
    simp only [hid]
    simp only [FMap.set_apply, Prod.mk.injEq] at hci
    split at hci
    · rename_i hcr
      obtain ⟨rfl, rfl⟩ := hcr
      cases hci
      refine ⟨by omega, Nat.le_refl _, hnew, ?_, ?_⟩
      · intro e' he' c1 r1 k1 hv'
        rcases List.mem_cons.1 he' with rfl | he'
        · obtain ⟨q1, q2, -⟩ := hv _ _ _ _ hv'; exact ⟨q1, q2⟩
        · have := (hi.invs e' he' _ _ _ _ hv').2.1; omega
      · intro p hp
        rw [AMap.get_set, if_pos rfl] at hp
        cases hp; exact ⟨rfl, rfl⟩
    · obtain ⟨h1, h2, h3, h4, h5⟩ := hi.ibc c' r' i hci
      refine ⟨h1, by omega, h3, ?_, ?_⟩
      · intro e' he' c1 r1 k1 hv'
        rcases List.mem_cons.1 he' with rfl | he'
        · obtain ⟨-, -, rfl⟩ := hv _ _ _ _ hv'; omega
        · exact h4 e' he' c1 r1 k1 hv'
      · intro p hp
        rw [AMap.get_set, if_neg (by omega)] at hp
        exact h5 p hp
  · intro x y i hx hy
    simp only [FMap.set_apply] at hx hy
    rcases x with ⟨x1, x2⟩
    rcases y with ⟨y1, y2⟩
    split at hx <;> split at hy
    · rename_i h1 h2; rw [h1, h2]
    · cases hx; have := (hi.ibc _ _ _ hy).2.1; omega
    · cases hy; have := (hi.ibc _ _ _ hx).2.1; omega
    · exact hi.ibi _ _ i hx hy
  · intro i
    rw [List.countP_cons, hf i]
    simp only [Bool.false_eq_true, if_false, Nat.add_zero, AMap.get_set]
    refine ⟨(hi.fin i).1, ?_⟩
    rintro ⟨e', he', hfe⟩
    rcases List.mem_cons.1 he' with rfl | he'
    · rw [hf i] at hfe; cases hfe
    · obtain ⟨h1, h2⟩ := (hi.fin i).2 ⟨e', he', hfe⟩
      exact ⟨by omega, by rw [if_neg (by omega)]; exact h2⟩
  · intro i hx hno
    simp only [AMap.get_set]
    split
    · exact ⟨_, rfl⟩
    · rename_i hne
      refine hi.kept i ?_ fun e'' h'' => hno e'' (List.mem_cons_of_mem _ h'')
      rcases hx with ⟨e', he', c', r', k', hv'⟩ | ⟨x, hx⟩
      · rcases List.mem_cons.1 he' with rfl | he'
        · obtain ⟨-, -, rfl⟩ := hv _ _ _ _ hv'; exact absurd rfl hne
        · exact .inl ⟨e', he', c', r', k', hv'⟩
      · simp only [FMap.set_apply] at hx
        split at hx
        · cases hx; exact absurd rfl hne
        · exact .inr ⟨x, hx⟩

/-- A CALL forwarded under an old ID. -/
theorem CInv.again {h : List Event} {b : State} (hi : CInv h b) {e : Event} {c r i : Nat} {nc a : Nat}
    (hci : b.invByCall (c, r) = some i)
    (hv : ∀ c' r' i' k', invoked c' r' i' k' e → c' = c ∧ r' = r ∧ i' = i) (hf : ∀ i, finalFor i e = false) :
    CInv (e :: h) { b with heap := hset b.heap a { b.heap a with nextCallee := nc } } := by
  have hid : ∀ a', (hset b.heap a { b.heap a with nextCallee := nc } a').id = (b.heap a').id := fun a' => (hset_next b a nc a').1
  obtain ⟨i1, i2, i3, i4, i5⟩ := hi.ibc c r i hci
  refine ⟨?_, ?_, ?_, ?_, hi.ibi, ?_, ?_⟩
  · intro e' he' c' r' j k' hv'
    simp only [hid]
    rcases List.mem_cons.1 he' with rfl | he'
    · obtain ⟨-, -, rfl⟩ := hv _ _ _ _ hv'
      exact ⟨i1, i2, i3⟩
    · exact hi.invs e' he' c' r' j k' hv'
  · intro e1 h1 e2 h2 c1 r1 j k1 c2 r2 k2 v1 v2
    rcases List.mem_cons.1 h1 with g1 | g1 <;> rcases List.mem_cons.1 h2 with g2 | g2
    · subst g1 g2
      obtain ⟨q1, q2, -⟩ := hv _ _ _ _ v1
      obtain ⟨q3, q4, -⟩ := hv _ _ _ _ v2
      exact ⟨q1.trans q3.symm, q2.trans q4.symm⟩
    · subst g1
      obtain ⟨q1, q2, rfl⟩ := hv _ _ _ _ v1
      obtain ⟨q3, q4⟩ := i4 e2 g2 _ _ _ v2
      exact ⟨q1.trans q3.symm, q2.trans q4.symm⟩
    · subst g2
      obtain ⟨q1, q2, rfl⟩ := hv _ _ _ _ v2
      obtain ⟨q3, q4⟩ := i4 e1 g1 _ _ _ v1
      exact ⟨q3.trans q1.symm, q4.trans q2.symm⟩
    · exact hi.invu e1 g1 e2 g2 c1 r1 j k1 c2 r2 k2 v1 v2
  · intro j p hp
    simp only [hid]
    simp only at hp
    obtain ⟨h1, h2, h3, ⟨e0, h4, h5⟩, h6⟩ := hi.pen j p hp
    refine ⟨h1, h2, h3, ⟨e0, List.mem_cons_of_mem _ h4, h5⟩, ?_⟩
    intro e' he' c' r' k' hv'
    rcases List.mem_cons.1 he' with rfl | he'
    · obtain ⟨q1, q2, rfl⟩ := hv _ _ _ _ hv'
      obtain ⟨q3, q4⟩ := i5 p hp
      exact ⟨q1.trans q3.symm, q2.trans q4.symm⟩
    · exact h6 e' he' c' r' k' hv'
  · intro c' r' j hcj
    simp only [hid]
    simp only at hcj
    obtain ⟨h1, h2, h3, h4, h5⟩ := hi.ibc c' r' j hcj
    refine ⟨h1, h2, h3, ?_, h5⟩
    intro e' he' c1 r1 k1 hv'
    rcases List.mem_cons.1 he' with rfl | he'
    · obtain ⟨q1, q2, rfl⟩ := hv _ _ _ _ hv'
      have := hi.ibi _ _ _ hcj hci
      simp only [Prod.mk.injEq] at this
      exact ⟨q1.trans this.1.symm, q2.trans this.2.symm⟩
    · exact h4 e' he' c1 r1 k1 hv'
  · intro j
    rw [List.countP_cons, hf j]
    simp only [Bool.false_eq_true, if_false, Nat.add_zero]
    refine ⟨(hi.fin j).1, ?_⟩
    rintro ⟨e', he', hfe⟩
    rcases List.mem_cons.1 he' with rfl | he'
    · rw [hf j] at hfe; cases hfe
    · exact (hi.fin j).2 ⟨e', he', hfe⟩
  · intro j hx hno
    refine hi.kept j ?_ fun e'' h'' => hno e'' (List.mem_cons_of_mem _ h'')
    rcases hx with ⟨e', he', c', r', k', hv'⟩ | hx
    · rcases List.mem_cons.1 he' with rfl | he'
      · obtain ⟨-, -, rfl⟩ := hv _ _ _ _ hv'
        exact .inr ⟨_, hci⟩
      · exact .inl ⟨e', he', c', r', k', hv'⟩
    · exact .inr hx

theorem step_cinv {w : Str → Str → Bool} {h : List Event} {b : State} (hr : RInv h b) (hi : CInv h b) (hlen : h.length < maxID) (op : Op)
    (hnp : (step w b op).2 ≠ .panic) : CInv (⟨op, (step w b op).2⟩ :: h) (step w b op).1 := by
  have hg : nextID b.idGen = (b.idGen + 1, b.idGen + 1) := nextID_small (Nat.lt_of_le_of_lt hr.gen hlen)
  have same : ∀ op r, (∀ s q o p a k bin order rnd, op ≠ Op.receive s (.call q o p a k bin) order rnd) →
      (∀ s i o a k bin order rnd, op ≠ .receive s (.yield i o a k bin) order rnd) →
      (∀ s t i d u a k order rnd, op ≠ .receive s (.error t i d u a k) order rnd) → CInv (⟨op, r⟩ :: h) b :=
    fun op r h1 h2 h3 => CInv.quiet hr hi (not_invoked_of_op h1) (not_final_of_op h2 h3) rfl rfl (Nat.le_refl _)
      (fun a ha => .inl ⟨ha, rfl⟩)
  cases op with
  | add d =>
    simp only [step, addSession]
    split
    · exact same _ _ (by simp) (by simp) (by simp)
    · exact CInv.quiet hr hi (not_invoked_of_op (by simp)) (not_final_of_op (by simp) (by simp)) rfl rfl (Nat.le_refl _)
        (fun a ha => .inl ⟨ha, rfl⟩)
  | has p => exact same _ _ (by simp) (by simp) (by simp)
  | disclose on =>
    exact CInv.quiet hr hi (not_invoked_of_op (by simp)) (not_final_of_op (by simp) (by simp)) rfl rfl (Nat.le_refl _)
        (fun a ha => .inl ⟨ha, rfl⟩)
  | remove s order =>
    simp only [step] at hnp ⊢
    rcases remove_cases b s order with ⟨-, e⟩ | ⟨-, e⟩ | ⟨-, e, f, -, f2⟩
    · rw [e]; exact same _ _ (by simp) (by simp) (by simp)
    · rw [e] at hnp; exact absurd rfl hnp
    · exact CInv.quiet hr hi (not_invoked_of_op (by simp)) (not_final_of_op (by simp) (by simp)) f.pending f.invByCall
        (Nat.le_of_eq f.idGen.symm) (fun a ha => .inl ⟨f.next ▸ ha, (f.objs a).1⟩)
  | receive s m order rnd =>
    simp only [step] at hnp ⊢
    cases m with
    | call r o p a k bin =>
      simp only [receive] at hnp ⊢
      rcases call_cases w b s r o p a k bin order rnd with ⟨-, e⟩ | ⟨e, -⟩ | ⟨a', callee, nc, inv, -, -, -, e, e'⟩
      · rw [e]
        refine CInv.quiet hr hi ?_ (not_final_of_op (by simp) (by simp)) rfl rfl (Nat.le_refl _) (fun a ha => .inl ⟨ha, rfl⟩)
        rintro c r' i k' ⟨_, _, _, _, _, _, _, _, _, _, _, _, he⟩
        simp only [noSuchProcedure, newError, Res.map_ok] at he
        cases he
      · rw [e] at hnp; exact absurd rfl hnp
      · have hv : ∀ c' r' i k', invoked c' r' i k' ⟨.receive s (.call r o p a k bin) order rnd,
            Res.map (fun x => Out.msg x.1 x.2) (call w b s r o p a k bin order rnd).2⟩ → c' = s ∧ r' = r ∧ i = inv := by
          rintro c' r' i k' ⟨o1, p1, a1, k1, bin1, or1, rn1, rid, d, a2, k2, bin2, he⟩
          injection he with q1 q2
          rcases e' with ⟨-, e'⟩ | ⟨c, -, -, e'⟩
          · rw [e'] at q2; cases q2
          · obtain ⟨d', a3, k3, bin3, hsh⟩ := invocationFor_shape b a' inv s o p a k bin c
            rw [e', hsh] at q2
            simp only [Res.map_ok, Res.ok.injEq, Out.msg.injEq, Msg.invocation.injEq] at q2
            simp only [Op.receive.injEq, Msg.call.injEq] at q1
            exact ⟨q1.1.symm, q1.2.1.1.symm, q2.1.1.symm⟩
        rcases e with ⟨-, hinv, e⟩ | ⟨hci, -, e⟩
        · rw [hg] at hinv
          simp only at hinv
          subst hinv
          rw [e, hg]
          refine CInv.fresh hr hi (o.flag optProgress) (k := callee) ⟨p, a, k, bin, order, rnd, rfl⟩ ?_ hv (not_final_of_op (by simp) (by simp))
          rcases e' with ⟨-, e'⟩ | ⟨c, -, -, e'⟩
          · rw [e']; exact .inl rfl
          · obtain ⟨d', a3, k3, bin3, hsh⟩ := invocationFor_shape b a' (b.idGen + 1) s o p a k bin c
            rw [e', hsh]
            exact .inr ⟨o, p, a, k, bin, order, rnd, _, _, _, _, _, rfl⟩
        · rw [e]
          exact CInv.again hi hci hv (not_final_of_op (by simp) (by simp))
    | yield i o a k bin =>
      simp only [receive]
      rcases yield_cases b i o a k bin with ⟨hp, e⟩ | ⟨p, hp, e, e'⟩
      · rw [e]
        refine CInv.quiet hr hi (not_invoked_of_op (by simp)) ?_ rfl rfl (Nat.le_refl _) (fun a ha => .inl ⟨ha, rfl⟩)
        intro j; simp [finalFor]
      · rw [e]
        cases hm : (p.receiveProgress && o.flag optProgress) with
        | true =>
          rw [if_pos rfl]
          refine CInv.quiet hr hi (not_invoked_of_op (by simp)) ?_ rfl rfl (Nat.le_refl _) (fun a ha => .inl ⟨ha, rfl⟩)
          intro j
          rcases e' with ⟨-, e'⟩ | ⟨c, -, e'⟩
          · rw [e']; simp [finalFor]
          · obtain ⟨d, a1, k1, bin1, hsh, hfl, -⟩ := resultFor_shape p.requestID true a k bin c
            rw [e', hm, hsh]
            simp [finalFor, hfl]
        | false =>
          rw [if_neg (by simp)]
          refine CInv.settle hi hp (not_invoked_of_op (by simp)) ?_ (by simp [answerFor])
          intro j hj
          simp only [finalFor, answerFor, Bool.and_eq_true, beq_iff_eq] at hj
          exact hj.1.symm
    | unregister r i =>
      simp only [receive] at hnp ⊢
      rcases unregister_cases b s r i with e | e | ⟨m, a, hm, -, -, f, -, f2, m', f3, f4⟩
      · rw [e]; exact same _ _ (by simp) (by simp) (by simp)
      · rw [e] at hnp; exact absurd rfl hnp
      · exact CInv.quiet hr hi (not_invoked_of_op (by simp)) (not_final_of_op (by simp) (by simp)) f.pending f.invByCall
          (Nat.le_of_eq f.idGen.symm) (fun a ha => .inl ⟨f.next ▸ ha, (f.objs a).1⟩)
    | error t i d u a k =>
      simp only [receive]
      rcases error_cases b t i d u a k with ⟨-, e⟩ | ⟨ht, p, hp, e⟩
      · rw [e]
        refine CInv.quiet hr hi (not_invoked_of_op (by simp)) ?_ rfl rfl (Nat.le_refl _) (fun a ha => .inl ⟨ha, rfl⟩)
        intro j; simp [finalFor]
      · rw [e]
        subst ht
        refine CInv.settle hi hp (not_invoked_of_op (by simp)) ?_ (by simp [answerFor])
        intro j hj
        simp only [finalFor, answerFor, Bool.and_eq_true, beq_iff_eq] at hj
        exact hj.1.2.symm
    | register r o p =>
      simp only [receive]
      rcases register_cases b s r o p with ⟨-, e⟩ | ⟨m, hm, ⟨a, -, -, e⟩ | ⟨a, ha, -, e⟩ | ⟨hp, e⟩⟩
      · rw [e]; exact same _ _ (by simp) (by simp) (by simp)
      · rw [e]; exact same _ _ (by simp) (by simp) (by simp)
      · rw [e]
        exact CInv.quiet hr hi (not_invoked_of_op (by simp)) (not_final_of_op (by simp) (by simp)) rfl rfl (Nat.le_refl _)
          (fun a' ha' => .inl ⟨ha', (hset_join b a s a').1⟩)
      · rw [e, hg]
        refine CInv.quiet hr hi (not_invoked_of_op (by simp)) (not_final_of_op (by simp) (by simp)) rfl rfl (Nat.le_succ _) ?_
        intro a' ha'
        simp only [hset] at ha' ⊢
        split
        · exact .inr rfl
        · exact .inl ⟨by omega, rfl⟩
    | _ => exact same _ _ (by simp) (by simp) (by simp)

theorem hist_cinv {w : Str → Str → Bool} {h : List Event} {b : State} (hh : Hist w h b) (hlen : h.length ≤ maxID) : CInv h b := by
  induction hh with
  | new => exact init_cinv
  | step op hh hnp ih =>
    simp only [List.length_cons] at hlen
    exact step_cinv (hist_rinv hh (by omega)) (ih (by omega)) (by omega) op hnp

end Wamp.Dealer
