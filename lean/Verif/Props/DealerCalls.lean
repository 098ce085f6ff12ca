import Verif.Props.Dealer
import Verif.Props.Messages
/-!
# C56–C62, C65, C66: the dealer, answers and payloads
-/
namespace Wamp.Dealer

variable {w : Str → Str → Bool}

/-- Where a RESULT comes from. -/
theorem result_of {b : State} {op : Op} {r s : Nat} {d : GoMap} {a : GoSlice} {k : GoMap} {bin : Bin}
    (he : (step w b op).2 = .ok (.msg (.result r d a k bin) s)) :
    ∃ s' i o a0 k0 bin0 order rnd p cd, op = .receive s' (.yield i o a0 k0 bin0) order rnd ∧ b.pending.get i = some p ∧ p.requestID = r ∧
      p.callerID = s ∧ b.sessions s = some cd ∧ d.flag (str "progress") = (p.receiveProgress && o.flag optProgress) ∧
      ((bin0.binary && cd.static) = true → bin = ⟨true, bin0.serializer, bin0.payload⟩ ∧ a = none ∧ k = none) ∧
      ((bin0.binary && cd.static) = false → a = a0 ∧ k = k0 ∧ bin = Bin.none) := by
  cases op with
  | add x =>
    simp only [step, addSession] at he
    split at he <;> cases he
  | has p => cases he
  | disclose on => cases he
  | remove s order =>
    simp only [step] at he
    rcases remove_cases b s order with ⟨-, e⟩ | ⟨-, e⟩ | ⟨-, e, -⟩ <;> rw [e] at he <;> cases he
  | receive s' m order rnd =>
    cases m with
    | call r0 o0 u0 a0 k0 bin0 =>
      simp only [step, receive] at he
      rcases call_cases w b s' r0 o0 u0 a0 k0 bin0 order rnd with ⟨-, e⟩ | ⟨e, -⟩ | ⟨x, callee, nc, inv, -, -, -, -, e2⟩
      · rw [e] at he; simp [Res.map, noSuchProcedure, newError] at he
      · rw [e] at he; cases he
      · rcases e2 with ⟨-, e2⟩ | ⟨cd, hc, hd, e2⟩
        · rw [e2] at he; cases he
        · obtain ⟨d2, a2, k2, bin2, hsh⟩ := invocationFor_shape b x inv s' o0 u0 a0 k0 bin0 cd
          rw [e2, hsh] at he
          simp [Res.map] at he
    | yield i o a0 k0 bin0 =>
      simp only [step, receive] at he
      rcases yield_cases b i o a0 k0 bin0 with ⟨-, e⟩ | ⟨p, hp, -, e2⟩
      · rw [e] at he; cases he
      · rcases e2 with ⟨-, e2⟩ | ⟨cd, hc, e2⟩
        · rw [e2] at he; cases he
        · obtain ⟨d2, a2, k2, bin2, hsh, h1, h2, h3⟩ := resultFor_shape p.requestID (p.receiveProgress && o.flag optProgress) a0 k0 bin0 cd
          rw [e2, hsh] at he
          simp only [Res.map_ok, Res.ok.injEq, Out.msg.injEq, Msg.result.injEq] at he
          obtain ⟨⟨rfl, rfl, rfl, rfl, rfl⟩, rfl⟩ := he
          exact ⟨s', i, o, a0, k0, bin0, order, rnd, p, cd, rfl, hp, rfl, rfl, hc, h1, h2, h3⟩
    | error t i d0 u0 a0 k0 =>
      simp only [step, receive] at he
      rcases error_cases b t i d0 u0 a0 k0 with ⟨-, e⟩ | ⟨-, p, -, e⟩ <;> rw [e] at he
      · cases he
      · simp [Res.map, newError] at he
    | register q o p =>
      simp only [step, receive] at he
      rcases register_cases b s' q o p with ⟨-, e⟩ | ⟨m, hm, ⟨x, -, -, e⟩ | ⟨x, hx, -, e⟩ | ⟨hp, e⟩⟩ <;> rw [e] at he
      · cases he
      · simp [Res.map, alreadyExists, newError] at he
      · simp [Res.map] at he
      · simp [Res.map] at he
    | unregister q i =>
      simp only [step, receive] at he
      rcases unregister_cases b s' q i with e | e | ⟨m, x, -, -, e, -⟩ <;> rw [e] at he
      · cases he
      · cases he
      · simp [Res.map] at he
    | _ => cases he

/-- Where an ERROR for a CALL comes from. -/
theorem error_of {b : State} {op : Op} {r s : Nat} {d : GoMap} {u : Str} {a : GoSlice} {k : GoMap}
    (he : (step w b op).2 = .ok (.msg (.error 48 r d u a k) s)) :
    (∃ o p a0 k0 bin order rnd, op = .receive s (.call r o p a0 k0 bin) order rnd ∧ u = str "wamp.error.no_such_procedure") ∨
    ∃ s' i d0 order rnd p, op = .receive s' (.error 68 i d0 u a k) order rnd ∧ b.pending.get i = some p ∧ p.requestID = r ∧
      p.callerID = s ∧ d = orEmpty d0 := by
  cases op with
  | add x =>
    simp only [step, addSession] at he
    split at he <;> cases he
  | has p => cases he
  | disclose on => cases he
  | remove s order =>
    simp only [step] at he
    rcases remove_cases b s order with ⟨-, e⟩ | ⟨-, e⟩ | ⟨-, e, -⟩ <;> rw [e] at he <;> cases he
  | receive s' m order rnd =>
    cases m with
    | call r0 o0 u0 a0 k0 bin0 =>
      simp only [step, receive] at he
      rcases call_cases w b s' r0 o0 u0 a0 k0 bin0 order rnd with ⟨-, e⟩ | ⟨e, -⟩ | ⟨x, callee, nc, inv, -, -, -, -, e2⟩
      · rw [e] at he
        simp only [Res.map_ok, noSuchProcedure, newError, Res.ok.injEq, Out.msg.injEq, Msg.error.injEq] at he
        obtain ⟨⟨-, rfl, -, rfl, -⟩, rfl⟩ := he
        exact .inl ⟨o0, u0, a0, k0, bin0, order, rnd, rfl, rfl⟩
      · rw [e] at he; cases he
      · rcases e2 with ⟨-, e2⟩ | ⟨cd, hc, hd, e2⟩
        · rw [e2] at he; cases he
        · obtain ⟨d2, a2, k2, bin2, hsh⟩ := invocationFor_shape b x inv s' o0 u0 a0 k0 bin0 cd
          rw [e2, hsh] at he
          simp [Res.map] at he
    | yield i o a0 k0 bin0 =>
      simp only [step, receive] at he
      rcases yield_cases b i o a0 k0 bin0 with ⟨-, e⟩ | ⟨p, hp, -, e2⟩
      · rw [e] at he; cases he
      · rcases e2 with ⟨-, e2⟩ | ⟨cd, hc, e2⟩
        · rw [e2] at he; cases he
        · obtain ⟨d2, a2, k2, bin2, hsh, -⟩ := resultFor_shape p.requestID (p.receiveProgress && o.flag optProgress) a0 k0 bin0 cd
          rw [e2, hsh] at he
          simp [Res.map] at he
    | error t i d0 u0 a0 k0 =>
      simp only [step, receive] at he
      rcases error_cases b t i d0 u0 a0 k0 with ⟨-, e⟩ | ⟨rfl, p, hp, e⟩ <;> rw [e] at he
      · cases he
      · simp only [Res.map_ok, newError, Res.ok.injEq, Out.msg.injEq, Msg.error.injEq] at he
        obtain ⟨⟨-, rfl, rfl, rfl, rfl, rfl⟩, rfl⟩ := he
        exact .inr ⟨s', i, d0, order, rnd, p, rfl, hp, rfl, rfl, rfl⟩
    | register q o p =>
      simp only [step, receive] at he
      rcases register_cases b s' q o p with ⟨-, e⟩ | ⟨m, hm, ⟨x, -, -, e⟩ | ⟨x, hx, -, e⟩ | ⟨hp, e⟩⟩ <;> rw [e] at he
      · cases he
      · simp [Res.map, alreadyExists, newError] at he
      · simp [Res.map] at he
      · simp [Res.map] at he
    | unregister q i =>
      simp only [step, receive] at he
      rcases unregister_cases b s' q i with e | e | ⟨m, x, -, -, e, -⟩ <;> rw [e] at he
      · cases he
      · cases he
      · simp [Res.map] at he
    | _ => cases he

/-! ### C56, C57 -/

/-- **C56** In every history, at most one final answer is forwarded per invocation ID, … -/
theorem C56_once {h : List Event} {b : State} (hh : Hist w h b) (hlen : h.length ≤ 2 ^ 53) (i : Nat) : h.countP (finalFor i) ≤ 1 :=
  ((hist_cinv hh hlen).fin i).1

/-- … and after it every YIELD or ERROR for that invocation is refused. -/
theorem C56_refused {h : List Event} {b : State} (hh : Hist w h b) (hlen : h.length ≤ 2 ^ 53) (i : Nat)
    (hf : ∃ e ∈ h, finalFor i e = true) (e : Event) (ha : answerFor i e = true) : (step w b e.op).2 = .err := by
  have hn := (((hist_cinv hh hlen).fin i).2 hf).2
  obtain ⟨op, res⟩ := e
  simp only [answerFor] at ha
  split at ha
  · simp only [beq_iff_eq] at ha
    subst ha
    simp only [step, receive, yield, hn, Res.map_err]
  · simp only [Bool.and_eq_true, beq_iff_eq] at ha
    obtain ⟨rfl, rfl⟩ := ha
    simp only [step, receive, error, hn]
    rfl
  · cases ha

/-- A call that was answered. -/
example : ∃ h b, Hist w h b ∧ h.length ≤ 2 ^ 53 ∧ h.countP (finalFor 2) = 1 ∧ (∃ e ∈ h, finalFor 2 e = true) ∧ answerFor 2 ⟨yieldOf 2 2, .err⟩ = true := by
  refine ⟨_, _, hist_run [.add (who 1), .add (who 2), reg 2 "p", callOf 1 7 "p", yieldOf 2 2] rfl, Nat.le_of_ble_eq_true rfl, rfl, ⟨_, .head _, rfl⟩, rfl⟩

/-- **C57** In every history, the final RESULTs and CALL ERRORs sent to `c` with request ID `r` are no more than the CALLs from `c` with
that ID. -/
theorem C57_answers {h : List Event} {b : State} (hh : Hist w h b) (c r : Nat) : h.countP (answered c r) ≤ h.countP (called c r) := by
  have := hist_ninv hh c r
  simp only [NInv] at this
  omega

/-- Two calls with the same request ID, both answered: by an error and by a result. -/
example : ∃ h b, Hist w h b ∧ h.countP (answered 1 7) = 2 ∧ h.countP (called 1 7) = 2 :=
  ⟨_, _, hist_run [.add (who 1), .add (who 2), callOf 1 7 "p", reg 2 "p", callOf 1 7 "p", yieldOf 2 2] rfl, rfl, rfl⟩

/-! ### C58, C59 -/

/-- **C58** A RESULT answers a YIELD for some invocation `i`.  It is sent to the session whose CALL produced `i` (that CALL may have
failed because the callee was gone), with the request ID of that CALL; and it carries the YIELD's arguments, or its binary payload if
the caller's serializer is static. -/
theorem C58_result {h : List Event} {b : State} (hh : Hist w h b) (hlen : h.length ≤ 2 ^ 53) (op : Op)
    (r s : Nat) (d : GoMap) (a : GoSlice) (k : GoMap) (bin : Bin) (he : (step w b op).2 = .ok (.msg (.result r d a k bin) s)) :
    ∃ s' i o a0 k0 bin0 order rnd cd, op = .receive s' (.yield i o a0 k0 bin0) order rnd ∧ session h s = some cd ∧
      (∃ e ∈ h, ∃ o', isCall s r o' e ∧ (e.res = .err ∨ ∃ x, invoked s r i x e)) ∧
      (∀ e ∈ h, ∀ c' r' x, invoked c' r' i x e → c' = s ∧ r' = r) ∧
      ((bin0.binary && cd.static) = false → a = a0 ∧ k = k0 ∧ bin = Bin.none) ∧
      ((bin0.binary && cd.static) = true → bin = ⟨true, bin0.serializer, bin0.payload⟩) := by
  obtain ⟨s', i, o, a0, k0, bin0, order, rnd, p, cd, h1, h2, rfl, rfl, h5, -, h6, h7⟩ := result_of he
  obtain ⟨-, -, -, ⟨e, e1, o', e2, -, e3⟩, h8⟩ := (hist_cinv hh hlen).pen i p h2
  rw [(hist_sinv hh).sess] at h5
  exact ⟨s', i, o, a0, k0, bin0, order, rnd, cd, h1, h5, ⟨e, e1, o', e2, e3⟩, h8, h7, fun h => (h6 h).1⟩

/-- **C58** An ERROR for a CALL is the caller's own no_such_procedure, or answers an ERROR for some invocation `i`; then it is sent to
the session whose CALL produced `i`, with the request ID of that CALL, and carries the URI, details and arguments of that ERROR. -/
theorem C58_error {h : List Event} {b : State} (hh : Hist w h b) (hlen : h.length ≤ 2 ^ 53) (op : Op)
    (r s : Nat) (d : GoMap) (u : Str) (a : GoSlice) (k : GoMap) (he : (step w b op).2 = .ok (.msg (.error 48 r d u a k) s)) :
    (∃ o p a0 k0 bin order rnd, op = .receive s (.call r o p a0 k0 bin) order rnd ∧ u = str "wamp.error.no_such_procedure") ∨
    ∃ s' i d0 order rnd, op = .receive s' (.error 68 i d0 u a k) order rnd ∧ d = some (d0.getD []) ∧
      (∃ e ∈ h, ∃ o', isCall s r o' e ∧ (e.res = .err ∨ ∃ x, invoked s r i x e)) ∧
      (∀ e ∈ h, ∀ c' r' x, invoked c' r' i x e → c' = s ∧ r' = r) := by
  rcases error_of he with h0 | ⟨s', i, d0, order, rnd, p, h1, h2, rfl, rfl, h3⟩
  · exact .inl h0
  · right
    obtain ⟨-, -, -, ⟨e, e1, o', e2, -, e3⟩, h8⟩ := (hist_cinv hh hlen).pen i p h2
    exact ⟨s', i, d0, order, rnd, h1, h3, ⟨e, e1, o', e2, e3⟩, h8⟩

/-- Two calls are open; the second one is answered. -/
example : ∃ h b, Hist w h b ∧ h.length ≤ 2 ^ 53 ∧ Event.result? ⟨yieldOf 2 3, (step w b (yieldOf 2 3)).2⟩ = some (8, 3) := by
  exact ⟨_, _, hist_run [.add (who 1), .add (who 2), .add (who 3), reg 2 "p", callOf 1 7 "p", callOf 3 8 "p"] rfl, Nat.le_of_ble_eq_true rfl, rfl⟩

/-- **C59** A RESULT marked progressive is sent only for a CALL with `receive_progress`. -/
theorem C59_progress {h : List Event} {b : State} (hh : Hist w h b) (hlen : h.length ≤ 2 ^ 53) (op : Op)
    (r s : Nat) (d : GoMap) (a : GoSlice) (k : GoMap) (bin : Bin) (he : (step w b op).2 = .ok (.msg (.result r d a k bin) s))
    (hp : d.flag (str "progress") = true) :
    ∃ e ∈ h, ∃ o, isCall s r o e ∧ o.flag (str "receive_progress") = true := by
  obtain ⟨s', i, o, a0, k0, bin0, order, rnd, p, cd, -, h2, rfl, rfl, -, hf, -⟩ := result_of he
  obtain ⟨-, -, -, ⟨e, e1, o', e2, e3, -⟩, -⟩ := (hist_cinv hh hlen).pen i p h2
  rw [hp] at hf
  have := (Bool.and_eq_true _ _ ▸ hf.symm : _ ∧ _).1
  exact ⟨e, e1, o', e2, e3.trans this⟩

/-- **C59** A YIELD that is answered with a RESULT which is not marked progressive, in particular every YIELD for a CALL without
`receive_progress`, ends the call: every later YIELD or ERROR for the invocation is refused. -/
theorem C59_ends {h : List Event} {b : State} (hh : Hist w h b) (hlen : h.length < 2 ^ 53)
    (s' i : Nat) (o : GoMap) (a0 : GoSlice) (k0 : GoMap) (bin0 : Bin) (order : List Str) (rnd : Nat)
    (r s : Nat) (d : GoMap) (a : GoSlice) (k : GoMap) (bin : Bin)
    (he : (step w b (.receive s' (.yield i o a0 k0 bin0) order rnd)).2 = .ok (.msg (.result r d a k bin) s)) :
    ((∀ e ∈ h, ∀ o, isCall s r o e → o.flag (str "receive_progress") = false) → d.flag (str "progress") = false) ∧
    (d.flag (str "progress") = false → ∀ e, answerFor i e = true →
      (step w (step w b (.receive s' (.yield i o a0 k0 bin0) order rnd)).1 e.op).2 = .err) := by
  constructor
  · intro hno
    cases hp : d.flag (str "progress") with
    | false => rfl
    | true =>
      obtain ⟨e, e1, o', e2, e3⟩ := C59_progress hh (Nat.le_of_lt hlen) _ r s d a k bin he hp
      rw [hno e e1 o' e2] at e3
      cases e3
  · intro hf e ha
    refine C56_refused (hh.step _ (by rw [he]; simp)) (by simp only [List.length_cons]; omega) i ⟨_, .head _, ?_⟩ e ha
    rw [he]
    simp [finalFor, answerFor, hf]

/-- A progressive result and one that is not. -/
example : ∃ h b, Hist noWild h b ∧ h.length < 2 ^ 53 ∧
    (∃ d a k bin, (step noWild b (.receive 2 (.yield 2 (some [(str "progress", .bool true)]) none none Bin.none) [] 0)).2 = .ok (.msg (.result 7 d a k bin) 1) ∧
      d.flag (str "progress") = true) ∧
    ∃ d a k bin, (step noWild b (.receive 2 (.yield 3 (some [(str "progress", .bool true)]) none none Bin.none) [] 0)).2 = .ok (.msg (.result 8 d a k bin) 1) ∧
      d.flag (str "progress") = false := by
  refine ⟨_, _, hist_run [.add (who 1), .add (who 2), reg 2 "p", callWith 1 7 "p" "receive_progress", callOf 1 8 "p"] rfl, Nat.le_of_ble_eq_true rfl, ?_, ?_⟩
  · exact ⟨_, _, _, _, rfl, rfl⟩
  · exact ⟨_, _, _, _, rfl, rfl⟩

/-! ### C60 -/

/-- **C60 is false**: INVOCATION 2 was sent to session 2; a YIELD for it from session 3 is forwarded to the caller. -/
theorem C60_stranger : ∃ h b, Hist w h b ∧ (∃ e ∈ h, invoked 1 7 2 2 e) ∧ (∀ e ∈ h, ∀ c r k, invoked c r 2 k e → k = 2) ∧
    Event.result? ⟨yieldOf 3 2, (step w b (yieldOf 3 2)).2⟩ = some (7, 1) := by
  refine ⟨_, _, hist_run [.add (who 1), .add (who 2), .add (who 3), reg 2 "p", callOf 1 7 "p"] rfl, ?_, ?_, rfl⟩
  · exact ⟨_, .head _, _, _, _, _, _, _, _, _, _, _, _, _, rfl⟩
  · rintro e he c r k ⟨o, p, a, k', bin, order, rnd, rid, d, a', k'', bin', heq⟩
    simp only [run, exec, List.mem_cons, List.not_mem_nil, or_false] at he
    rcases he with rfl | rfl | rfl | rfl | rfl <;> injection heq with h1 h2
    · injection h2 with h2
      injection h2 with h2 h3
      exact h3.symm
    · cases h1
    · cases h1
    · cases h1
    · cases h1

/-- **C60** what does hold: a YIELD or ERROR is forwarded only for an invocation that some CALL produced and that got no final answer yet.
What is missing is that it comes from the session the INVOCATION was sent to (`C60_stranger`). -/
theorem C60_outstanding_partial {h : List Event} {b : State} (hh : Hist w h b) (hlen : h.length ≤ 2 ^ 53) (i : Nat) (e : Event)
    (ha : answerFor i e = true) (hok : (step w b e.op).2 ≠ .err) :
    (∃ e ∈ h, ∃ c r o, isCall c r o e ∧ (e.res = .err ∨ ∃ x, invoked c r i x e)) ∧ ∀ e ∈ h, finalFor i e = false := by
  have hC := hist_cinv hh hlen
  constructor
  · obtain ⟨op, res⟩ := e
    have : ∃ p, b.pending.get i = some p := by
      cases hp : b.pending.get i with
      | some p => exact ⟨p, rfl⟩
      | none =>
        exfalso
        apply hok
        simp only [answerFor] at ha
        split at ha
        · simp only [beq_iff_eq] at ha
          subst ha
          simp only [step, receive, yield, hp, Res.map_err]
        · simp only [Bool.and_eq_true, beq_iff_eq] at ha
          obtain ⟨rfl, rfl⟩ := ha
          simp only [step, receive, error, hp]
          rfl
        · cases ha
    obtain ⟨p, hp⟩ := this
    obtain ⟨-, -, -, ⟨e, e1, o', e2, -, e3⟩, -⟩ := hC.pen i p hp
    exact ⟨e, e1, _, _, o', e2, e3⟩
  · intro e' he'
    cases hf : finalFor i e' with
    | false => rfl
    | true => exact absurd (C56_refused hh hlen i ⟨e', he', hf⟩ e ha) hok

/-! ### C61 -/

/-- **C61 is false** for the final CALL: it gets a new invocation ID. -/
theorem C61_final_call : ∃ h b, Hist w h b ∧ lastInv h 1 7 = some 2 ∧
    Event.invocation? ⟨callOf 1 7 "p", (step w b (callOf 1 7 "p")).2⟩ = some (3, 1, 2) :=
  ⟨_, _, hist_run [.add (who 1), .add (who 2), reg 2 "p", callWith 1 7 "p" "progress"] rfl, rfl, rfl⟩

/-- **C61 is false** for the callee: in a shared registration, the CALLs of one progressive call go to different sessions. -/
theorem C61_other_callee : ∃ h b, Hist noWild h b ∧ (∃ e ∈ h, invoked 1 7 2 2 e) ∧
    Event.invocation? ⟨callWith 1 7 "p" "progress", (step noWild b (callWith 1 7 "p" "progress")).2⟩ = some (2, 1, 3) := by
  refine ⟨_, _, hist_run [.add (who 1), .add (who 2), .add (who 3), regWith 2 "p" "roundrobin", regWith 3 "p" "roundrobin",
    callWith 1 7 "p" "progress"] (by decide +kernel), ?_, by decide +kernel⟩
  exact ⟨_, .head _, _, _, _, _, _, _, _, _, _, _, _, _, rfl⟩

/-- **C61** what does hold: a CALL with `progress` that becomes an INVOCATION has the same invocation ID as the last INVOCATION for the
same request of the same caller (if none of its CALLs failed).  What is missing is the final CALL (`C61_final_call`) and that the callee
stays the same (`C61_other_callee`). -/
theorem C61_same_id_partial {h : List Event} {b : State} (hh : Hist w h b) (c r i : Nat) (hn : noErr c r h) (hl : lastInv h c r = some i)
    (o : GoMap) (hp : o.flag (str "progress") = true) (u : Str) (a : GoSlice) (k : GoMap) (bin : Bin) (order : List Str) (rnd : Nat)
    (j q s : Nat) (d : GoMap) (a' : GoSlice) (k' : GoMap) (bin' : Bin)
    (he : (step w b (.receive c (.call r o u a k bin) order rnd)).2 = .ok (.msg (.invocation j q d a' k' bin') s)) : j = i := by
  have hinv := hist_linv hh c r hn
  rw [hl] at hinv
  obtain ⟨x, nc, cd, -, -, -, -, -, -, -, ⟨h1, -⟩ | ⟨h1, -⟩⟩ := invocation_of he
  · rcases h1 with h1 | h1
    · rw [hinv] at h1; cases h1
    · rw [show o.flag optProgress = true from hp] at h1; cases h1
  · rw [hinv] at h1
    cases h1
    rfl

/-- The second CALL of a progressive call. -/
example : ∃ h b, Hist w h b ∧ noErr 1 7 h ∧ lastInv h 1 7 = some 2 ∧
    Event.invocation? ⟨callWith 1 7 "p" "progress", (step w b (callWith 1 7 "p" "progress")).2⟩ = some (2, 1, 2) := by
  refine ⟨_, _, hist_run [.add (who 1), .add (who 2), reg 2 "p", callWith 1 7 "p" "progress"] rfl, ?_, rfl, rfl⟩
  intro e he hc
  simp only [run, exec, List.mem_cons, List.not_mem_nil, or_false] at he
  rcases he with rfl | rfl | rfl | rfl
  · exact fun h => nomatch h
  · cases hc
  · cases hc
  · cases hc

/-! ### C62 -/

/-- The dealer answers a call only when it receives a YIELD or an ERROR, or a CALL with the same request ID from the caller. -/
theorem C62_never_unasked {b : State} (c r : Nat) (op : Op) (ha : answered c r ⟨op, (step w b op).2⟩ = true) :
    (∃ s i o a k bin order rnd, op = .receive s (.yield i o a k bin) order rnd) ∨
    (∃ s t i d u a k order rnd, op = .receive s (.error t i d u a k) order rnd) ∨ called c r ⟨op, (step w b op).2⟩ = true := by
  simp only [answered] at ha
  split at ha
  · rename_i q d a k bin s heq
    obtain ⟨s', i, o, a0, k0, bin0, order, rnd, p, cd, h1, -⟩ := result_of heq
    exact .inl ⟨s', i, o, a0, k0, bin0, order, rnd, h1⟩
  · rename_i t q d u a k s heq
    simp only [Bool.and_eq_true, beq_iff_eq] at ha
    obtain ⟨⟨rfl, rfl⟩, rfl⟩ := ha
    rcases error_of heq with ⟨o, p, a0, k0, bin, order, rnd, rfl, -⟩ | ⟨s', i, d0, order, rnd, p, rfl, -⟩
    · exact .inr (.inr (by simp [called]))
    · exact .inr (.inl ⟨_, _, _, _, _, _, _, _, _, rfl⟩)
  · cases ha

/-- Is this a YIELD, an ERROR, or a CALL from `c` with request ID `r`? -/
def asks (c r : Nat) : Op → Bool
  | .receive _ (.yield ..) _ _ => true
  | .receive _ (.error ..) _ _ => true
  | .receive s (.call q ..) _ _ => s == c && q == r
  | _ => false

theorem exec_unanswered (c r : Nat) : ∀ (ops : List Op) (h : List Event) (b : State), (∀ op ∈ ops, asks c r op = false) →
    (∀ e ∈ h, answered c r e = false) → ∀ e ∈ (exec w (h, b) ops).1, answered c r e = false
  | [], _, _, _, h0, e, he => h0 e he
  | op :: ops, h, b, ha, h0, e, he => by
    refine exec_unanswered c r ops _ _ (fun op' h' => ha op' (List.mem_cons_of_mem _ h')) ?_ e he
    intro e' he'
    rcases List.mem_cons.1 he' with rfl | he'
    · cases hans : answered c r ⟨op, (step w b op).2⟩ with
      | false => rfl
      | true =>
        have hno := ha op (List.mem_cons_self ..)
        rcases C62_never_unasked c r op hans with ⟨s, i, o, a, k, bin, order, rnd, rfl⟩ | ⟨s, t, i, d, u, a, k, order, rnd, rfl⟩ | hcall
        · cases hno
        · cases hno
        · simp only [called] at hcall
          split at hcall
          · simp only [asks] at hno
            rw [hcall] at hno
            cases hno
          · cases hcall
    · exact h0 e' he'

/-- **C62 is false**: session 1 called session 2, which was then removed (and there is nobody else); whatever happens afterwards, short of
somebody else answering in its place or the caller calling again with the same ID, the caller never gets an answer. -/
theorem C62_no_answer : ∃ h b, Hist w h b ∧ (∃ e ∈ h, invoked 1 7 2 2 e) ∧ attached h 1 ∧ ¬attached h 2 ∧
    ∀ ops, (∀ op ∈ ops, asks 1 7 op = false) → ∀ e ∈ (exec w (h, b) ops).1, answered 1 7 e = false := by
  refine ⟨_, _, hist_run [.add (who 1), .add (who 2), reg 2 "p", callOf 1 7 "p", .remove 2 []] rfl, ?_, rfl, ?_, ?_⟩
  · exact ⟨_, .tail _ (.head _), _, _, _, _, _, _, _, _, _, _, _, _, rfl⟩
  · intro h; cases h
  · intro ops ha
    refine exec_unanswered 1 7 ops _ _ ha ?_
    intro e he
    simp only [run, exec, List.mem_cons, List.not_mem_nil, or_false] at he
    rcases he with rfl | rfl | rfl | rfl | rfl <;> rfl

/-- **C62** what does hold: as long as no YIELD or ERROR for an INVOCATION arrived, whatever became of the callee, a YIELD for it is still
forwarded to the caller, if the caller is attached.  What is missing is that anything happens when the callee goes (`C62_no_answer`). -/
theorem C62_open_partial {h : List Event} {b : State} (hh : Hist w h b) (hlen : h.length ≤ 2 ^ 53) (c r i x : Nat)
    (hi : ∃ e ∈ h, invoked c r i x e) (hno : ∀ e ∈ h, answerFor i e = false) (hc : attached h c)
    (s : Nat) (o : GoMap) (a : GoSlice) (k : GoMap) (bin : Bin) (order : List Str) (rnd : Nat) :
    ∃ d a' k' bin', (step w b (.receive s (.yield i o a k bin) order rnd)).2 = .ok (.msg (.result r d a' k' bin') c) := by
  have hC := hist_cinv hh hlen
  obtain ⟨e, he, hinv⟩ := hi
  obtain ⟨p, hp⟩ := hC.kept i (.inl ⟨e, he, c, r, x, hinv⟩) hno
  obtain ⟨rfl, rfl⟩ := (hC.pen i p hp).2.2.2.2 e he c r x hinv
  simp only [step, receive]
  rcases yield_cases b i o a k bin with ⟨hn, -⟩ | ⟨p', hp', -, e2⟩
  · rw [hp] at hn; cases hn
  · rw [hp] at hp'
    cases hp'
    rcases e2 with ⟨hn, -⟩ | ⟨cd, -, e2⟩
    · rw [attached, ← (hist_sinv hh).sess, hn] at hc; cases hc
    · obtain ⟨d, a1, k1, bin1, hsh, -⟩ := resultFor_shape p.requestID (p.receiveProgress && o.flag optProgress) a k bin cd
      rw [e2, hsh]
      exact ⟨d, a1, k1, bin1, rfl⟩

/-- The callee was removed; the invocation is still open. -/
example : ∃ h b, Hist w h b ∧ h.length ≤ 2 ^ 53 ∧ (∃ e ∈ h, invoked 1 7 2 2 e) ∧ (∀ e ∈ h, answerFor 2 e = false) ∧ attached h 1 := by
  refine ⟨_, _, hist_run [.add (who 1), .add (who 2), reg 2 "p", callOf 1 7 "p", .remove 2 []] rfl, Nat.le_of_ble_eq_true rfl, ?_, ?_, rfl⟩
  · exact ⟨_, .tail _ (.head _), _, _, _, _, _, _, _, _, _, _, _, _, rfl⟩
  · intro e he
    simp only [run, exec, List.mem_cons, List.not_mem_nil, or_false] at he
    rcases he with rfl | rfl | rfl | rfl | rfl <;> rfl

/-! ### C65, C66 -/

/-- **C65** After every history: with disclosure off, an INVOCATION carries no procedure and no caller identity; with it on, it carries
the called procedure and the caller's session ID, authid and authrole; and no detail besides those, the progress options and the
payload serializer. -/
theorem C65_disclosure {h : List Event} {b : State} (hh : Hist w h b)
    (c r : Nat) (o : GoMap) (u : Str) (a : GoSlice) (k : GoMap) (bin : Bin) (order : List Str) (rnd : Nat)
    (j i s : Nat) (d : GoMap) (a' : GoSlice) (k' : GoMap) (bin' : Bin)
    (he : (step w b (.receive c (.call r o u a k bin) order rnd)).2 = .ok (.msg (.invocation j i d a' k' bin') s)) :
    (disclosed h = false → d.get (str "procedure") = none ∧ d.get (str "caller") = none ∧ d.get (str "caller_authid") = none ∧
      d.get (str "caller_authrole") = none) ∧
    (disclosed h = true → ∃ cd, session h c = some cd ∧ d.get (str "procedure") = some (.str u) ∧ d.get (str "caller") = some (.u64 c) ∧
      d.get (str "caller_authid") = some (.str cd.authID) ∧ d.get (str "caller_authrole") = some (.str cd.authRole)) ∧
    (d.get (str "progress") = if o.flag (str "progress") then some (.bool true) else none) ∧
    (d.get (str "receive_progress") = if o.flag (str "receive_progress") then some (.bool true) else none) ∧
    ∀ key v, d.get key = some v → key ∈ [str "procedure", str "caller", str "caller_authid", str "caller_authrole", str "progress",
      str "receive_progress", str "x_payload_serializer"] := by
  have hS := hist_sinv hh
  obtain ⟨x, nc, cd, -, -, -, -, -, hd, hsh, -⟩ := invocation_of he
  rw [← hS.det]
  -- the details without the serializer
  generalize hdd : invocationDetails (if b.details then b.sessions c else none) c u (o.flag optProgress) (o.flag optReceiveProgress) = dd
  have hcases : d = some dd ∨ ∃ n, d = some (dset dd (str "x_payload_serializer") (.u64 n)) := by
    simp only [invocationFor, hdd, newInvocationBinary, newInvocation] at hsh
    split at hsh
    · simp only [Msg.invocation.injEq] at hsh
      exact .inr ⟨_, hsh.2.2.1.symm⟩
    · simp only [Msg.invocation.injEq] at hsh
      exact .inl hsh.2.2.1.symm
  have hget : ∀ key, key ≠ str "x_payload_serializer" → d.get key = dget dd key := by
    intro key hk
    rcases hcases with rfl | ⟨n, rfl⟩
    · rfl
    · exact dget_dset_other _ _ hk
  have hkeys : ∀ key v, d.get key = some v → dget dd key = some v ∨ key = str "x_payload_serializer" := by
    intro key v hv
    by_cases hk : key = str "x_payload_serializer"
    · exact .inr hk
    · rw [hget key hk] at hv; exact .inl hv
  rw [hget _ (by decide), hget _ (by decide), hget _ (by decide), hget _ (by decide), hget _ (by decide), hget _ (by decide)]
  have hkeys' : (∀ key v, dget dd key = some v → key ∈ [str "procedure", str "caller", str "caller_authid", str "caller_authrole", str "progress",
      str "receive_progress", str "x_payload_serializer"]) → ∀ key v, d.get key = some v → key ∈ [str "procedure", str "caller",
      str "caller_authid", str "caller_authrole", str "progress", str "receive_progress", str "x_payload_serializer"] := by
    intro h1 key v hv
    rcases hkeys key v hv with h2 | rfl
    · exact h1 key v h2
    · simp
  have hmem : ∀ (l : Dict) key v, dget l key = some v → key ∈ l.map Prod.fst := by
    intro l key v hv
    induction l with
    | nil => cases hv
    | cons p rest ih =>
      obtain ⟨k', v'⟩ := p
      simp only [dget] at hv
      split at hv
      · next e => subst e; simp
      · exact List.mem_cons_of_mem _ (ih hv)
  have e1 : o.flag optProgress = o.flag (str "progress") := rfl
  have e2 : o.flag optReceiveProgress = o.flag (str "receive_progress") := rfl
  rw [e1, e2] at hdd
  cases hb : b.details with
  | false =>
    rw [hb] at hdd
    simp only [Bool.false_eq_true, if_false] at hdd
    refine ⟨fun _ => ?_, (fun h => nomatch h), ?_, ?_, hkeys' fun key v hv => ?_⟩
    · subst hdd
      cases o.flag (str "progress") <;> cases o.flag (str "receive_progress") <;> exact ⟨rfl, rfl, rfl, rfl⟩
    · subst hdd
      cases o.flag (str "progress") <;> cases o.flag (str "receive_progress") <;> rfl
    · subst hdd
      cases o.flag (str "progress") <;> cases o.flag (str "receive_progress") <;> rfl
    · have := hmem dd key v hv
      subst hdd
      revert this
      cases o.flag (str "progress") <;> cases o.flag (str "receive_progress") <;>
        simp only [invocationDetails, optProgress, optReceiveProgress, if_true, Bool.false_eq_true, if_false, List.nil_append, List.append_nil, List.cons_append,
          List.map_cons, List.map_nil, List.mem_cons, List.not_mem_nil, or_false, false_imp_iff] <;> rintro (rfl | rfl) <;> simp
  | true =>
    have hcs := hd hb
    obtain ⟨cdd, hcd⟩ := Option.isSome_iff_exists.1 hcs
    rw [hb, hcd] at hdd
    simp only [if_true] at hdd
    refine ⟨(fun h => nomatch h), fun _ => ⟨cdd, by rw [← hS.sess, hcd], ?_⟩, ?_, ?_, hkeys' fun key v hv => ?_⟩
    · subst hdd
      cases o.flag (str "progress") <;> cases o.flag (str "receive_progress") <;> exact ⟨rfl, rfl, rfl, rfl⟩
    · subst hdd
      cases o.flag (str "progress") <;> cases o.flag (str "receive_progress") <;> rfl
    · subst hdd
      cases o.flag (str "progress") <;> cases o.flag (str "receive_progress") <;> rfl
    · have := hmem dd key v hv
      subst hdd
      revert this
      cases o.flag (str "progress") <;> cases o.flag (str "receive_progress") <;>
        simp only [invocationDetails, optProgress, optReceiveProgress, if_true, Bool.false_eq_true, if_false, List.nil_append, List.append_nil, List.cons_append,
          List.map_cons, List.map_nil, List.mem_cons, List.not_mem_nil] <;> intro h <;> (repeat (rcases h with rfl | h; · simp)) <;> exact h.elim

/-! ### C66 -/

/-- **C66** what does hold: an INVOCATION carries the arguments of the CALL, or its binary payload and serializer if the recipient supports
those.  What is missing: a binary payload for any other recipient is lost (`C66_lost`). -/
theorem C66_payload_partial {h : List Event} {b : State} (hh : Hist w h b)
    (c r : Nat) (o : GoMap) (u : Str) (a : GoSlice) (k : GoMap) (bin : Bin) (order : List Str) (rnd : Nat)
    (j i s : Nat) (d : GoMap) (a' : GoSlice) (k' : GoMap) (bin' : Bin)
    (he : (step w b (.receive c (.call r o u a k bin) order rnd)).2 = .ok (.msg (.invocation j i d a' k' bin') s)) :
    (bin.binary = false → a' = a ∧ k' = k ∧ bin' = Bin.none) ∧
    (bin.binary = true → (∃ cd, session h s = some cd ∧ cd.static = true) → bin' = bin ∧
      d.get (str "x_payload_serializer") = some (.u64 bin.serializer)) := by
  obtain ⟨x, nc, cd, -, -, -, -, hs, -, hsh, -⟩ := invocation_of he
  rw [(hist_sinv hh).sess] at hs
  refine ⟨fun hb => ?_, fun hb ⟨cd', h1, h2⟩ => ?_⟩
  · simp only [invocationFor, hb, Bool.false_and, Bool.false_eq_true, if_false, newInvocation, Msg.invocation.injEq] at hsh
    exact ⟨hsh.2.2.2.1.symm, hsh.2.2.2.2.1.symm, hsh.2.2.2.2.2.symm⟩
  · rw [hs] at h1
    cases h1
    simp only [invocationFor, hb, h2, Bool.and_self, if_true, newInvocationBinary, Msg.invocation.injEq] at hsh
    obtain ⟨-, -, rfl, -, -, rfl⟩ := hsh
    refine ⟨?_, dget_dset_same _ _ _⟩
    cases bin
    simp_all

/-- A session that supports binary payloads. -/
def whoStatic (n : Nat) : SessionDetails := { who n with static := true }
/-- CALL with a binary payload. -/
def callBinary (c r : Nat) (p : String) : Op := .receive c (.call r none (str p) none none ⟨true, 1, [1, 2, 3]⟩) [] 0
/-- Arguments and payload of an INVOCATION. -/
def Event.payload? : Event → Option (GoSlice × GoMap × Bin)
  | ⟨_, .ok (.msg (.invocation _ _ _ a k bin) _)⟩ => some (a, k, bin)
  | _ => none

/-- A binary payload for a session that supports it. -/
example : ∃ h b, Hist w h b ∧ (∃ cd, session h 2 = some cd ∧ cd.static = true) ∧
    Event.invocation? ⟨callBinary 1 7 "p", (step w b (callBinary 1 7 "p")).2⟩ = some (2, 1, 2) ∧
    Event.payload? ⟨callBinary 1 7 "p", (step w b (callBinary 1 7 "p")).2⟩ = some (none, none, ⟨true, 1, [1, 2, 3]⟩) :=
  ⟨_, _, hist_run [.add (who 1), .add (whoStatic 2), reg 2 "p"] rfl, ⟨_, rfl, rfl⟩, rfl, rfl⟩

/-- **C66 is false**: for a recipient that does not support binary payloads, the payload is dropped. -/
theorem C66_lost : ∃ h b, Hist w h b ∧ Event.payload? ⟨callBinary 1 7 "p", (step w b (callBinary 1 7 "p")).2⟩ = some (none, none, Bin.none) :=
  ⟨_, _, hist_run [.add (who 1), .add (who 2), reg 2 "p"] rfl, rfl⟩

end Wamp.Dealer
