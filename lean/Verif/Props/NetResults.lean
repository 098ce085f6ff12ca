import Verif.Props.NetComplete
import Verif.Props.Results
/-!
# C121 over byte streams
-/
namespace Wamp.Net
open Wamp Wamp.System Wamp.Spec Wamp.Session

variable {w : Str → Str → Bool} {k : Nat → Kind}

theorem answersCall_received (norm : Val → Val) (r : Nat) (m : Msg) : answersCall r (received norm m) = answersCall r m := by cases m <;> rfl

theorem filter_received (norm : Val → Val) (r : Nat) (l : List Msg) :
    (l.map (received norm)).filter (answersCall r) = (l.filter (answersCall r)).map (received norm) := by
  rw [List.filter_map]
  congr 1
  exact List.filter_congr fun m _ => answersCall_received norm r m

/-- **C121** The dealer has been given CALL `r` of `s` and has sent INVOCATION `i` to `c`, who alone answers it, and not before.  Once the router
has read all bytes of `c`, and `s` all bytes of the router, `s` has read what `c` yielded, all of it and in the same order: `outs`, as its
serializer reads it. -/
theorem C121_over_bytes {n : Net} (h : Run w k n) (hb : n.core.bh.length ≤ 2 ^ 53) (hd : n.core.dh.length ≤ 2 ^ 53)
    {s r : Nat} {o : GoMap} {u : Str} {a : GoSlice} {kw : GoMap} {bin : Bin} {wo : List Str} {rnd : Nat}
    {c i g : Nat} {d : GoMap} {a' : GoSlice} {k' : GoMap} {bin' : Bin} {after before : List Dealer.Event}
    (he : n.core.dh = after ++ ⟨.receive s (.call r o u a kw bin) wo rnd, .ok (.msg (.invocation i g d a' k' bin') c)⟩ :: before)
    (hf : Fresh n.core s) (hs : Stays n.core s) (honly : ∀ p, ∀ m ∈ n.core.sent p, answersInvocation i m → p = c)
    (hbefore : ∀ e ∈ before, ∀ m wo rnd, e.op = .receive c m wo rnd → ¬answersInvocation i m) (hc : n.TakenAll c) (hr : n.ReadAll s) :
    ∃ outs, AllPassedOn (o.flag (str "receive_progress")) r (answersTo (o.flag (str "receive_progress")) i (heard k n c)) outs ∧
      (n.got s).filter (answersCall r) = outs.map (received (k s).norm) := by
  obtain ⟨l, hl, ha⟩ := run_at h
  rw [← ha.sim.dh] at he hd
  rw [← ha.sim.bh] at hb
  obtain ⟨l0, act, l1, as, h1, h2, h3, h4, h5⟩ := reach_backD hl he
  obtain ⟨so, rest, rfl, hup⟩ := h5 _ _ _ _ rfl
  have hinv : l1.inbox c = l0.inbox c ++ [.invocation i g d a' k' bin'] := by
    cases tstep h2 with
    | other e1 e2 e3 =>
      exfalso
      refine e2 (s, .call r o u a kw bin) ?_ trivial
      simp only [Log.taken, h2, List.append_nil, hup]
      exact .head _
    | dealer p m rest' wo' rnd' e1 e2 e3 e4 e5 e6 e7 e8 =>
      obtain ⟨t, ht⟩ := (run_grows as h3).2.1
      rw [he, e7, h4] at ht
      have h6 := (List.append_inj' ht rfl).2
      injection h6 with h6 _
      injection h6 with h6 h7
      rw [e8, h7, dealerOut, messagesFor_one, if_pos rfl]
  have key := C121_caller_gets_what_callee_yields h1 hup h2 hinv h3 hb hd (fresh_sim ha.sim hf) (ha.stays.2 hs)
    (fun p m hm hi => by
      obtain ⟨m0, hm0, rfl⟩ := ha.mem_sent.1 hm
      exact honly p m0 hm0 ((answersInvocation_received _ _ _).1 hi))
    (by rw [h4]; exact hbefore) (ha.up hc) (ha.down hr)
  refine ⟨_, ?_, by rw [ha.got, filter_received]⟩
  have : l.outbox c = heard k n c := by
    rw [Log.outbox, ha.sim.sent, heard, List.map_reverse]
  rw [← this]
  exact key

/-- Client 2 (MsgPack) registers "p"; client 1 (CBOR) calls it and wants progressive results; client 2 yields twice with "progress" and once without. -/
def yielding : List Cmd :=
  [.join (Dealer.who 1), .join (Dealer.who 2)] ++ sends 2 (newRegister 1 none (str "p")) ++ [.down 2 100, .deliver 2] ++
  sends 1 (newCall 7 (some [(str "receive_progress", .bool true)]) (str "p") none none) ++ [.down 2 100, .deliver 2] ++
  sends 2 (newYield 2 (some [(str "progress", .bool true)]) (some [.str (str "a")]) none) ++
  sends 2 (newYield 2 (some [(str "progress", .bool true)]) (some [.str (str "b")]) none) ++
  sends 2 (newYield 2 none (some [.str (str "c")]) none) ++ [.down 1 1000, .deliver 1, .deliver 1, .deliver 1]

/-- CALL 7 of client 1, with progressive results, was passed on as INVOCATION 2 to client 2. -/
def isTheCall (e : Dealer.Event) : Bool :=
  match e with
  | ⟨.receive 1 (.call 7 o _ _ _ _) _ _, .ok (.msg (.invocation 2 _ _ _ _ _) 2)⟩ => o.flag (str "receive_progress")
  | _ => false

theorem isTheCall_some {e : Dealer.Event} (h : isTheCall e = true) : ∃ o u a kw bin wo rnd g d a' k' bin', o.flag (str "receive_progress") = true ∧
    e = ⟨.receive 1 (.call 7 o u a kw bin) wo rnd, .ok (.msg (.invocation 2 g d a' k' bin') 2)⟩ := by
  unfold isTheCall at h
  split at h
  · exact ⟨_, _, _, _, _, _, _, _, _, _, _, _, h, rfl⟩
  · cases h

theorem split_first {α : Type} (P : α → Bool) (l : List α) (h : l.any P = true) :
    ∃ before e after, l = before ++ e :: after ∧ P e = true ∧ after = (l.dropWhile (fun x => !P x)).tail := by
  induction l with
  | nil => cases h
  | cons x l ih =>
    cases hx : P x with
    | true => exact ⟨[], x, l, rfl, hx, by simp [hx]⟩
    | false =>
      rw [List.any_cons, hx, Bool.false_or] at h
      obtain ⟨before, e, after, e1, e2, e3⟩ := ih h
      exact ⟨x :: before, e, after, by rw [e1]; rfl, e2, by simp only [List.dropWhile_cons, hx]; exact e3⟩

example : ∃ n o u a kw bin wo rnd g d a' k' bin' after before, Run Dealer.noWild mixed n ∧ n.core.bh.length ≤ 2 ^ 53 ∧ n.core.dh.length ≤ 2 ^ 53 ∧
    n.core.dh = after ++ ⟨.receive 1 (.call 7 o u a kw bin) wo rnd, .ok (.msg (.invocation 2 g d a' k' bin') 2)⟩ :: before ∧
    o.flag (str "receive_progress") = true ∧ Fresh n.core 1 ∧ Stays n.core 1 ∧ (∀ p, ∀ m ∈ n.core.sent p, answersInvocation 2 m → p = 2) ∧
    (∀ e ∈ before, ∀ m wo rnd, e.op = .receive 2 m wo rnd → ¬answersInvocation 2 m) ∧ n.TakenAll 2 ∧ n.ReadAll 1 ∧
    (answersTo true 2 (heard mixed n 2)).length = 3 ∧
    (n.got 1).map told = [(7, true, str "a"), (7, true, str "b"), (7, false, str "c")] := by
  have hb : (after yielding).core.bh.length ≤ 2 ^ 53 := by decide +kernel
  have hd : (after yielding).core.dh.length ≤ 2 ^ 53 := by decide +kernel
  obtain ⟨after', e, before, e1, e2, e3⟩ := split_first isTheCall (after yielding).core.dh (by decide +kernel)
  obtain ⟨o, u, a, kw, bin, wo, rnd, g, d, a', k', bin', e4, rfl⟩ := isTheCall_some e2
  refine ⟨after yielding, o, u, a, kw, bin, wo, rnd, g, d, a', k', bin', after', before, run_after _, hb, hd, e1, e4, by unfold Fresh; decide +kernel,
    stays_of (by decide +kernel), ?_, ?_, ⟨by decide +kernel, by decide +kernel⟩, ⟨by decide +kernel, by decide +kernel⟩, by decide +kernel, by decide +kernel⟩
  · intro p m hm hi
    have hj : (after yielding).core.joined = [2, 1] := by decide +kernel
    have hq : ((after yielding).core.sent 1).all (fun m => (invocationOf m).isNone) = true := by decide +kernel
    by_cases hp : p ∈ (after yielding).core.joined
    · rw [hj] at hp
      rcases List.mem_cons.1 hp with rfl | hp
      · rfl
      · cases List.mem_singleton.1 hp
        have h4 := List.all_eq_true.1 hq m hm
        cases m <;> simp only [answersInvocation] at hi
        · obtain ⟨rfl, rfl⟩ := hi
          cases h4
        · cases h4
    · rw [(net_joined (run_after _) hb hd p hp).1] at hm; cases hm
  · intro e he m wo rnd hop hi
    have hq : ((after yielding).core.dh.dropWhile (fun x => !isTheCall x)).tail.all
        (fun e => match e.op with | .receive _ m _ _ => (invocationOf m).isNone | _ => true) = true := by decide +kernel
    rw [← e3] at hq
    have h4 := List.all_eq_true.1 hq e he
    rw [hop] at h4
    cases m <;> simp only [answersInvocation] at hi
    · obtain ⟨rfl, rfl⟩ := hi
      cases h4
    · cases h4

end Wamp.Net
