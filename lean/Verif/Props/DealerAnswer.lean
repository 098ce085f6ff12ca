import Verif.Props.DealerCalls
/-!
# C85: the dealer, an INVOCATION can be answered
-/
namespace Wamp.Dealer

variable {w : Str → Str → Bool}

/-- A YIELD or ERROR for invocation `i` that was not answered with a progressive RESULT: it was refused, or it was final. -/
def closing (i : Nat) (e : Event) : Bool :=
  answerFor i e &&
  match e.res with
  | .ok (.msg (.result _ d _ _ _) _) => !(d.flag (str "progress"))
  | _ => true

/-- An invocation stays open until a YIELD or ERROR for it closes it. -/
theorem kept_open {h : List Event} {b : State} (hh : Hist w h b) (hlen : h.length ≤ maxID) :
    ∀ i, ((∃ e ∈ h, ∃ c r k, invoked c r i k e) ∨ ∃ x, b.invByCall x = some i) → (∀ e ∈ h, closing i e = false) →
      ∃ p, b.pending.get i = some p := by
  induction hh with
  | new => rintro i (⟨e, he, -⟩ | ⟨x, hx⟩) <;> simp_all [init]
  | @step h b op hh hnp ih =>
    simp only [List.length_cons] at hlen
    have ih := ih (by omega)
    have quiet : ∀ (r : Res Out) (b' : State), (∀ s q o p a k bin order rnd, op ≠ Op.receive s (.call q o p a k bin) order rnd) →
        b'.pending = b.pending → b'.invByCall = b.invByCall →
        ∀ i, ((∃ e ∈ (⟨op, r⟩ :: h : List Event), ∃ c r k, invoked c r i k e) ∨ ∃ x, b'.invByCall x = some i) →
          (∀ e ∈ (⟨op, r⟩ :: h : List Event), closing i e = false) → ∃ p, b'.pending.get i = some p := by
      intro r b' hno h1 h2 i hi hc
      rw [h1]
      refine ih i ?_ fun e he => hc e (.tail _ he)
      rcases hi with ⟨e, he, c, r', k, hv⟩ | hx
      · rcases List.mem_cons.1 he with rfl | he
        · exact absurd hv (not_invoked_of_op hno c r' i k)
        · exact .inl ⟨e, he, c, r', k, hv⟩
      · rw [h2] at hx; exact .inr hx
    cases op with
    | add d =>
      refine quiet _ _ (by simp) ?_ ?_ <;> (simp only [step, addSession]; split <;> rfl)
    | has p => exact quiet _ _ (by simp) rfl rfl
    | disclose on => exact quiet _ _ (by simp) rfl rfl
    | remove s order =>
      simp only [step] at hnp ⊢
      rcases remove_cases b s order with ⟨-, e⟩ | ⟨-, e⟩ | ⟨-, e, f, -, f2⟩
      · rw [e]; exact quiet _ _ (by simp) rfl rfl
      · rw [e] at hnp; exact absurd rfl hnp
      · exact quiet _ _ (by simp) f.pending f.invByCall
    | receive s m order rnd =>
      simp only [step] at hnp ⊢
      cases m with
      | call r o p a k bin =>
        simp only [receive] at hnp ⊢
        intro i hi hc
        have hc' : ∀ e ∈ h, closing i e = false := fun e he => hc e (.tail _ he)
        rcases call_cases w b s r o p a k bin order rnd with ⟨-, e⟩ | ⟨e, -⟩ | ⟨a', callee, nc, inv, -, -, -, e, e'⟩
        · rw [e] at hi ⊢
          refine ih i ?_ hc'
          rcases hi with ⟨e1, he, c1, r1, k1, hv⟩ | hx
          · rcases List.mem_cons.1 he with rfl | he
            · obtain ⟨_, _, _, _, _, _, _, _, _, _, _, _, hq⟩ := hv
              simp only [noSuchProcedure, newError, Res.map_ok] at hq
              cases hq
            · exact .inl ⟨e1, he, c1, r1, k1, hv⟩
          · exact .inr hx
        · rw [e] at hnp; exact absurd rfl hnp
        · have hv : ∀ c' r' i k', invoked c' r' i k' ⟨.receive s (.call r o p a k bin) order rnd,
              Res.map (fun x => Out.msg x.1 x.2) (call w b s r o p a k bin order rnd).2⟩ → i = inv := by
            rintro c' r' i k' ⟨o1, p1, a1, k1, bin1, or1, rn1, rid, d, a2, k2, bin2, he⟩
            injection he with q1 q2
            rcases e' with ⟨-, e'⟩ | ⟨c, -, -, e'⟩
            · rw [e'] at q2; cases q2
            · obtain ⟨d', a3, k3, bin3, hsh⟩ := invocationFor_shape b a' inv s o p a k bin c
              rw [e', hsh] at q2
              simp only [Res.map_ok, Res.ok.injEq, Out.msg.injEq, Msg.invocation.injEq] at q2
              exact q2.1.1.symm
          rcases e with ⟨-, hinv, e⟩ | ⟨hci, -, e⟩
          · rw [e] at hi ⊢
            simp only [AMap.get_set]
            split
            · exact ⟨_, rfl⟩
            · rename_i hne
              refine ih i ?_ hc'
              rcases hi with ⟨e1, he, c1, r1, k1, hv1⟩ | ⟨x, hx⟩
              · rcases List.mem_cons.1 he with rfl | he
                · exact absurd (hv _ _ _ _ hv1) hne
                · exact .inl ⟨e1, he, c1, r1, k1, hv1⟩
              · simp only [FMap.set] at hx
                split at hx
                · cases hx; exact absurd rfl hne
                · exact .inr ⟨x, hx⟩
          · rw [e] at hi ⊢
            refine ih i ?_ hc'
            rcases hi with ⟨e1, he, c1, r1, k1, hv1⟩ | hx
            · rcases List.mem_cons.1 he with rfl | he
              · rw [hv _ _ _ _ hv1]; exact .inr ⟨_, hci⟩
              · exact .inl ⟨e1, he, c1, r1, k1, hv1⟩
            · exact .inr hx
      | yield j o a k bin =>
        simp only [receive]
        rcases yield_cases b j o a k bin with ⟨hp, e⟩ | ⟨p, hp, e, e'⟩
        · rw [e]; exact quiet _ _ (by simp) rfl rfl
        · rw [e]
          cases hm : (p.receiveProgress && o.flag optProgress) with
          | true => rw [if_pos rfl]; exact quiet _ _ (by simp) rfl rfl
          | false =>
            rw [if_neg (by simp)]
            intro i hi hc
            obtain ⟨q, hq⟩ := quiet _ b (by simp) rfl rfl i hi hc
            simp only [AMap.get_del]
            split
            · rename_i hij
              subst hij
              have := hc _ (.head _)
              rcases e' with ⟨-, e'⟩ | ⟨c, -, e'⟩
              · rw [e'] at this; simp [closing, answerFor] at this
              · obtain ⟨d, a1, k1, bin1, hsh, hfl, -⟩ := resultFor_shape p.requestID false a k bin c
                rw [e', hm, hsh] at this
                simp [closing, answerFor, hfl] at this
            · exact ⟨q, hq⟩
      | unregister r i =>
        simp only [receive] at hnp ⊢
        rcases unregister_cases b s r i with e | e | ⟨m, a, hm, -, -, f, -, f2, m', f3, f4⟩
        · rw [e]; exact quiet _ _ (by simp) rfl rfl
        · rw [e] at hnp; exact absurd rfl hnp
        · exact quiet _ _ (by simp) f.pending f.invByCall
      | error t j d u a k =>
        simp only [receive]
        rcases error_cases b t j d u a k with ⟨-, e⟩ | ⟨ht, p, hp, e⟩
        · rw [e]; exact quiet _ _ (by simp) rfl rfl
        · rw [e]
          subst ht
          intro i hi hc
          obtain ⟨q, hq⟩ := quiet _ b (by simp) rfl rfl i hi hc
          simp only [AMap.get_del]
          split
          · rename_i hij
            subst hij
            have := hc _ (.head _)
            simp [closing, answerFor, newError] at this
          · exact ⟨q, hq⟩
      | register r o p =>
        simp only [receive]
        rcases register_cases b s r o p with ⟨-, e⟩ | ⟨m, hm, ⟨a, -, -, e⟩ | ⟨a, ha, -, e⟩ | ⟨hp, e⟩⟩ <;>
          (rw [e]; exact quiet _ _ (by simp) rfl rfl)
      | _ => exact quiet _ _ (by simp) rfl rfl

/-- **C85 is false**: the request ID 7 of session 1 belongs to a call that was answered; another CALL with `progress` under that ID is turned
into INVOCATION 2 for session 2 once more, but that session's YIELD for it is refused. -/
theorem C85_stale : ∃ h b, Hist w h b ∧ attached h 1 ∧ (∃ e h', h = e :: h' ∧ invoked 1 7 2 2 e) ∧
    (step w b (yieldOf 2 2)).2 = .err := by
  refine ⟨_, _, hist_run [.add (who 1), .add (who 2), reg 2 "p", callWith 1 7 "p" "progress", yieldOf 2 2, callWith 1 7 "p" "progress"] rfl, rfl,
    ⟨_, _, rfl, _, _, _, _, _, _, _, _, _, _, _, _, rfl⟩, rfl⟩

/-- **C85** what does hold: after every history, an INVOCATION for which no YIELD or ERROR was refused or final so far can be answered, also
by further progressive results: a YIELD for it becomes a RESULT for the caller (while the caller is attached), and an ERROR for it an
ERROR for the caller, both with the request ID of the CALL.  What is missing are invocation IDs used again after they were answered
(`C85_stale`). -/
theorem C85_answerable_partial {h : List Event} {b : State} (hh : Hist w h b) (hlen : h.length ≤ 2 ^ 53) (c r i x : Nat)
    (hi : ∃ e ∈ h, invoked c r i x e) (hno : ∀ e ∈ h, closing i e = false) (s : Nat) (order : List Str) (rnd : Nat) :
    (attached h c → ∀ o a k bin, ∃ d a' k' bin',
      (step w b (.receive s (.yield i o a k bin) order rnd)).2 = .ok (.msg (.result r d a' k' bin') c)) ∧
    (∀ d u a k, (step w b (.receive s (.error 68 i d u a k) order rnd)).2 = .ok (.msg (.error 48 r (some (d.getD [])) u a k) c)) := by
  have hC := hist_cinv hh hlen
  obtain ⟨e, he, hinv⟩ := hi
  obtain ⟨p, hp⟩ := kept_open hh hlen i (.inl ⟨e, he, c, r, x, hinv⟩) hno
  obtain ⟨rfl, rfl⟩ := (hC.pen i p hp).2.2.2.2 e he c r x hinv
  constructor
  · intro hc o a k bin
    simp only [step, receive]
    rcases yield_cases b i o a k bin with ⟨hn, -⟩ | ⟨p', hp', -, e2⟩
    · rw [hp] at hn; cases hn
    · rw [hp] at hp'
      cases hp'
      rcases e2 with ⟨hn, -⟩ | ⟨cd, -, e2⟩
      · rw [attached, ← (hist_sinv hh).sess, hn] at hc; cases hc
      · obtain ⟨d, a1, k1, bin1, hsh, -⟩ := resultFor_shape p.requestID (p.receiveProgress && o.flag optProgress) a k bin cd
        rw [e2, hsh]
        exact ⟨d, a1, k1, bin1, rfl⟩
  · intro d u a k
    simp only [step, receive]
    rcases error_cases b 68 i d u a k with ⟨h1 | h1, -⟩ | ⟨-, p', hp', e2⟩
    · exact absurd rfl h1
    · rw [hp] at h1; cases h1
    · rw [hp] at hp'
      cases hp'
      rw [e2]
      rfl

/-- A call with a progressive result already sent. -/
example : ∃ h b, Hist noWild h b ∧ h.length ≤ 2 ^ 53 ∧ (∃ e ∈ h, invoked 1 7 2 2 e) ∧ (∀ e ∈ h, closing 2 e = false) ∧ attached h 1 ∧
    ∃ e ∈ h, answerFor 2 e = true := by
  refine ⟨_, _, hist_run [.add (who 1), .add (who 2), reg 2 "p", callWith 1 7 "p" "receive_progress",
    .receive 2 (.yield 2 (some [(str "progress", .bool true)]) none none Bin.none) [] 0] rfl, Nat.le_of_ble_eq_true rfl,
    ⟨_, .tail _ (.head _), _, _, _, _, _, _, _, _, _, _, _, _, rfl⟩, ?_, rfl, ⟨_, .head _, rfl⟩⟩
  intro e he
  simp only [run, exec, List.mem_cons, List.not_mem_nil, or_false] at he
  rcases he with rfl | rfl | rfl | rfl | rfl <;> rfl

end Wamp.Dealer
