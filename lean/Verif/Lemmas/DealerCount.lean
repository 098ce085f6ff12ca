import Verif.Lemmas.DealerCalls
/-!
# Counting answers; the last invocation of a request
-/
namespace Wamp.Dealer

section
variable {K V : Type} [DecidableEq K]

theorem countP_set (f : K × V → Bool) (k : K) (v : V) : ∀ m : AMap K V,
    (m.set k v).countP f ≤ m.countP f + (if f (k, v) then 1 else 0)
  | [] => by simp [AMap.set, List.countP_cons]
  | (k', v') :: m => by
    have ih := countP_set f k v m
    simp only [AMap.set]
    split
    · simp only [List.countP_cons]; omega
    · simp only [List.countP_cons]; omega

theorem countP_del_le (f : K × V → Bool) (k : K) : ∀ m : AMap K V, (m.del k).countP f ≤ m.countP f
  | [] => by simp [AMap.del]
  | (k', v') :: m => by
    have ih := countP_del_le f k m
    simp only [AMap.del]
    split
    · simp only [List.countP_cons]; omega
    · simp only [List.countP_cons]; omega

theorem countP_del (f : K × V → Bool) (k : K) (v : V) : ∀ m : AMap K V, m.get k = some v →
    (m.del k).countP f + (if f (k, v) then 1 else 0) ≤ m.countP f
  | [], h => by simp [AMap.get] at h
  | (k', v') :: m, h => by
    simp only [AMap.get] at h
    simp only [AMap.del]
    split
    · rename_i e
      rw [if_pos e] at h
      cases h
      subst e
      have := countP_del_le f k m
      simp only [List.countP_cons]; omega
    · rename_i e
      rw [if_neg e] at h
      have ih := countP_del f k v m h
      simp only [List.countP_cons]; omega
end

/-- The pending entries of a request. -/
def open_ (c r : Nat) (x : Nat × Pending) : Bool := x.2.callerID == c && x.2.requestID == r

/-- Final answers and outstanding invocations of a request together are no more than its CALLs. -/
def NInv (c r : Nat) (h : List Event) (b : State) : Prop :=
  h.countP (answered c r) + b.pending.countP (open_ c r) ≤ h.countP (called c r)

theorem NInv.quiet {c r : Nat} {h : List Event} {b b' : State} {e : Event} (hi : NInv c r h b)
    (hp : b'.pending = b.pending) (he : answered c r e = false) : NInv c r (e :: h) b' := by
  simp only [NInv, List.countP_cons, hp, he, Bool.false_eq_true, if_false] at hi ⊢
  omega

/-- Results that are not answers. -/
theorem not_answered {c r : Nat} {op : Op} {res : Res Out} (h1 : ∀ q d a k bin s, res ≠ .ok (.msg (.result q d a k bin) s))
    (h2 : ∀ q d u a k s, res ≠ .ok (.msg (.error 48 q d u a k) s)) : answered c r ⟨op, res⟩ = false := by
  simp only [answered]
  split
  · exact (h1 _ _ _ _ _ _ rfl).elim
  · rename_i t q d u a k s
    by_cases ht : t = 48
    · subst ht; exact (h2 _ _ _ _ _ _ rfl).elim
    · simp [ht]
  · rfl

theorem step_ninv {c r : Nat} {w : Str → Str → Bool} {h : List Event} {b : State} (hi : NInv c r h b) (op : Op)
    (hnp : (step w b op).2 ≠ .panic) : NInv c r (⟨op, (step w b op).2⟩ :: h) (step w b op).1 := by
  cases op with
  | add d =>
    simp only [step, addSession]
    split <;> exact hi.quiet rfl (not_answered (by simp) (by simp))
  | has p => exact hi.quiet rfl (not_answered (by simp [step]) (by simp [step]))
  | disclose on => exact hi.quiet rfl (not_answered (by simp [step]) (by simp [step]))
  | remove s order =>
    simp only [step] at hnp ⊢
    rcases remove_cases b s order with ⟨-, e⟩ | ⟨-, e⟩ | ⟨-, e, f, -, f2⟩
    · rw [e]; exact hi.quiet rfl (not_answered (by simp) (by simp))
    · rw [e] at hnp; exact absurd rfl hnp
    · rw [e]; exact hi.quiet f.pending (not_answered (by simp) (by simp))
  | receive s m order rnd =>
    simp only [step] at hnp ⊢
    cases m with
    | call q o p a k bin =>
      simp only [receive] at hnp ⊢
      rcases call_cases w b s q o p a k bin order rnd with ⟨-, e⟩ | ⟨e, -⟩ | ⟨a', callee, nc, inv, -, -, -, e, e'⟩
      · rw [e]
        simp only [NInv, List.countP_cons, answered, called, noSuchProcedure, newError, Res.map_ok] at hi ⊢
        simp only [beq_self_eq_true, Bool.true_and]
        by_cases hx : (s == c && q == r) = true <;> simp [hx] <;> omega
      · rw [e] at hnp; exact absurd rfl hnp
      · have ha : answered c r ⟨.receive s (.call q o p a k bin) order rnd,
            Res.map (fun x => Out.msg x.1 x.2) (call w b s q o p a k bin order rnd).2⟩ = false := by
          rcases e' with ⟨-, e'⟩ | ⟨c', -, -, e'⟩
          · rw [e']; exact not_answered (by simp) (by simp)
          · obtain ⟨d', a3, k3, bin3, hsh⟩ := invocationFor_shape b a' inv s o p a k bin c'
            rw [e', hsh]; exact not_answered (by simp) (by simp)
        rcases e with ⟨-, -, e⟩ | ⟨-, -, e⟩
        · rw [e]
          have := countP_set (open_ c r) inv (⟨q, s, callee, o.flag optProgress, o.flag optReceiveProgress⟩ : Pending) b.pending
          simp only [NInv, List.countP_cons, ha, called] at hi ⊢
          have ho : open_ c r (inv, (⟨q, s, callee, o.flag optProgress, o.flag optReceiveProgress⟩ : Pending)) = (s == c && q == r) := rfl
          rw [ho] at this
          simp only [Bool.false_eq_true, if_false, Nat.add_zero]
          by_cases hx : (s == c && q == r) = true <;> simp [hx] at this ⊢ <;> omega
        · rw [e]
          exact hi.quiet rfl ha
    | yield i o a k bin =>
      simp only [receive]
      rcases yield_cases b i o a k bin with ⟨hp, e⟩ | ⟨p, hp, e, e'⟩
      · rw [e]; exact hi.quiet rfl (not_answered (by simp) (by simp))
      · rw [e]
        cases hm : (p.receiveProgress && o.flag optProgress) with
        | true =>
          rw [if_pos rfl]
          refine hi.quiet rfl ?_
          rcases e' with ⟨-, e'⟩ | ⟨c, -, e'⟩
          · rw [e']; exact not_answered (by simp) (by simp)
          · obtain ⟨d, a1, k1, bin1, hsh, hfl, -⟩ := resultFor_shape p.requestID true a k bin c
            rw [e', hm, hsh]
            simp [answered, hfl]
        | false =>
          rw [if_neg (by simp)]
          have hd := countP_del (open_ c r) i p b.pending hp
          have hle : (if answered c r ⟨.receive s (.yield i o a k bin) order rnd,
              Res.map (fun x => Out.msg x.1 x.2) (yield b i o a k bin).2⟩ = true then 1 else 0) ≤ if open_ c r (i, p) = true then 1 else 0 := by
            rcases e' with ⟨-, e'⟩ | ⟨c', -, e'⟩
            · rw [e', not_answered (by simp) (by simp)]; simp
            · obtain ⟨d, a1, k1, bin1, hsh, hfl, -⟩ := resultFor_shape p.requestID false a k bin c'
              rw [e', hm, hsh]
              simp [answered, hfl, open_]
          simp only [NInv, List.countP_cons, called] at hi ⊢
          simp only [Bool.false_eq_true, if_false, Nat.add_zero]
          omega
    | unregister q i =>
      simp only [receive] at hnp ⊢
      rcases unregister_cases b s q i with e | e | ⟨m, a, hm, -, e, f, -, f2, m', f3, f4⟩
      · rw [e]; exact hi.quiet rfl (not_answered (by simp) (by simp))
      · rw [e] at hnp; exact absurd rfl hnp
      · rw [e]; exact hi.quiet f.pending (not_answered (by simp) (by simp))
    | error t i d u a k =>
      simp only [receive]
      rcases error_cases b t i d u a k with ⟨-, e⟩ | ⟨ht, p, hp, e⟩
      · rw [e]; exact hi.quiet rfl (not_answered (by simp) (by simp))
      · rw [e]
        have hd := countP_del (open_ c r) i p b.pending hp
        simp only [NInv, List.countP_cons, called, answered, newError, Res.map_ok] at hi hd ⊢
        have ho : open_ c r (i, p) = (p.callerID == c && p.requestID == r) := rfl
        rw [ho] at hd
        simp only [beq_self_eq_true, Bool.true_and, Bool.false_eq_true, if_false, Nat.add_zero]
        cases hx : (p.callerID == c && p.requestID == r) <;> simp [hx] at hd ⊢ <;> omega
    | register q o p =>
      simp only [receive]
      rcases register_cases b s q o p with ⟨-, e⟩ | ⟨m, hm, ⟨a, -, -, e⟩ | ⟨a, ha, -, e⟩ | ⟨hp, e⟩⟩
      · rw [e]; exact hi.quiet rfl (not_answered (by simp) (by simp))
      · rw [e]; exact hi.quiet rfl (not_answered (by simp [alreadyExists, newError]) (by simp [alreadyExists, newError]))
      · rw [e]; exact hi.quiet rfl (not_answered (by simp) (by simp))
      · rw [e]; exact hi.quiet rfl (not_answered (by simp) (by simp))
    | _ => exact hi.quiet rfl (not_answered (by simp [receive]) (by simp [receive]))

theorem hist_ninv {w : Str → Str → Bool} {h : List Event} {b : State} (hh : Hist w h b) (c r : Nat) : NInv c r h b := by
  induction hh with
  | new => simp [NInv, init]
  | step op hh hnp ih => exact step_ninv ih op hnp

/-! ### The last invocation of a request -/

theorem lastInv_other {h : List Event} {op : Op} {res : Res Out} {c r : Nat} (hc : called c r ⟨op, res⟩ = false) :
    lastInv (⟨op, res⟩ :: h) c r = lastInv h c r := by
  conv => lhs; unfold lastInv
  split
  · simp_all
  · rename_i heq
    simp only [List.cons.injEq, Event.mk.injEq] at heq
    obtain ⟨⟨rfl, rfl⟩, rfl⟩ := heq
    simp only [called, Bool.and_eq_false_iff, beq_eq_false_iff_ne] at hc
    rw [if_neg (by omega)]
  · rename_i heq
    simp only [List.cons.injEq] at heq
    rw [heq.2]

/-- If no CALL of the request failed, the recorded invocation ID is the one sent last. -/
def LInv (c r : Nat) (h : List Event) (b : State) : Prop := noErr c r h → b.invByCall (c, r) = lastInv h c r

theorem LInv.quiet {c r : Nat} {h : List Event} {b b' : State} {op : Op} {res : Res Out} (hi : LInv c r h b)
    (hp : b'.invByCall = b.invByCall) (he : called c r ⟨op, res⟩ = false) : LInv c r (⟨op, res⟩ :: h) b' := by
  intro hn
  rw [lastInv_other he, hp]
  exact hi fun e h1 => hn e (List.mem_cons_of_mem _ h1)

theorem step_linv {c r : Nat} {w : Str → Str → Bool} {h : List Event} {b : State} (hi : LInv c r h b) (op : Op)
    (hnp : (step w b op).2 ≠ .panic) : LInv c r (⟨op, (step w b op).2⟩ :: h) (step w b op).1 := by
  cases op with
  | add d =>
    simp only [step, addSession]
    split <;> exact hi.quiet rfl rfl
  | has p => exact hi.quiet rfl rfl
  | disclose on => exact hi.quiet rfl rfl
  | remove s order =>
    simp only [step] at hnp ⊢
    rcases remove_cases b s order with ⟨-, e⟩ | ⟨-, e⟩ | ⟨-, e, f, -, f2⟩
    · rw [e]; exact hi.quiet rfl rfl
    · rw [e] at hnp; exact absurd rfl hnp
    · exact hi.quiet f.invByCall rfl
  | receive s m order rnd =>
    simp only [step] at hnp ⊢
    cases m with
    | call q o p a k bin =>
      simp only [receive] at hnp ⊢
      rcases call_cases w b s q o p a k bin order rnd with ⟨-, e⟩ | ⟨e, -⟩ | ⟨a', callee, nc, inv, -, -, -, e, e'⟩
      · rw [e]
        intro hn
        exact hi fun e h1 => hn e (List.mem_cons_of_mem _ h1)
      · rw [e] at hnp; exact absurd rfl hnp
      · by_cases hcr : s = c ∧ q = r
        · obtain ⟨rfl, rfl⟩ := hcr
          intro hn
          rcases e' with ⟨-, e'⟩ | ⟨c', -, -, e'⟩
          · rw [e'] at hn
            exact absurd rfl (hn _ List.mem_cons_self (by simp [called]))
          · obtain ⟨d', a3, k3, bin3, hsh⟩ := invocationFor_shape b a' inv s o p a k bin c'
            rw [e', hsh]
            simp only [Res.map_ok, lastInv, and_self, if_true]
            rcases e with ⟨-, -, e⟩ | ⟨e0, -, e⟩
            · rw [e]; simp
            · rw [e]; exact e0
        · have hcl : ∀ res, called c r ⟨.receive s (.call q o p a k bin) order rnd, res⟩ = false := by
            intro res
            simp only [called, Bool.and_eq_false_iff, beq_eq_false_iff_ne]
            omega
          intro hn
          rw [lastInv_other (hcl _), ← hi fun e h1 => hn e (List.mem_cons_of_mem _ h1)]
          rcases e with ⟨-, -, e⟩ | ⟨e0, -, e⟩
          · rw [e]
            simp only [FMap.set_apply]
            rw [if_neg]
            intro e
            cases e
            exact hcr ⟨rfl, rfl⟩
          · rw [e]
    | yield i o a k bin =>
      simp only [receive]
      rcases yield_cases b i o a k bin with ⟨hp, e⟩ | ⟨p, hp, e, e'⟩
      · rw [e]; exact hi.quiet rfl rfl
      · refine hi.quiet ?_ rfl
        rw [e]
        split <;> rfl
    | unregister q i =>
      simp only [receive] at hnp ⊢
      rcases unregister_cases b s q i with e | e | ⟨m, a, hm, -, e, f, -, f2, m', f3, f4⟩
      · rw [e]; exact hi.quiet rfl rfl
      · rw [e] at hnp; exact absurd rfl hnp
      · exact hi.quiet f.invByCall rfl
    | error t i d u a k =>
      simp only [receive]
      rcases error_cases b t i d u a k with ⟨-, e⟩ | ⟨ht, p, hp, e⟩
      · rw [e]; exact hi.quiet rfl rfl
      · rw [e]; exact hi.quiet rfl rfl
    | register q o p =>
      simp only [receive]
      rcases register_cases b s q o p with ⟨-, e⟩ | ⟨m, hm, ⟨a, -, -, e⟩ | ⟨a, ha, -, e⟩ | ⟨hp, e⟩⟩ <;>
      · rw [e]; exact hi.quiet rfl rfl
    | _ => exact hi.quiet rfl rfl

theorem hist_linv {w : Str → Str → Bool} {h : List Event} {b : State} (hh : Hist w h b) (c r : Nat) : LInv c r h b := by
  induction hh with
  | new => intro _; rfl
  | step op hh hnp ih => exact step_linv ih op hnp

end Wamp.Dealer
