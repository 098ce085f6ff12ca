import Verif.Props.NetResults
import Verif.Props.Parts
/-!
# C129 over byte streams
-/
namespace Wamp.Net
open Wamp Wamp.System Wamp.Spec Wamp.Session

variable {w : Str → Str → Bool} {k : Nat → Kind}

theorem invokes_received (norm : Val → Val) (i : Nat) (l : List Msg) :
    (l.map (received norm)).filter (invokes i) = (l.filter (invokes i)).map (received norm) := by
  rw [List.filter_map]
  congr 1
  exact List.filter_congr fun m _ => by cases m <;> rfl

/-- **C129** The dealer has given client `c` registration `g` of `u`, an exclusive one, and `c` neither gives it up nor is removed; until then
the dealer had no CALL with request ID `r` of `s`.  All CALLs with that ID that the router reads from `s` are for `u` and marked as progressive.
Once the router has read all bytes of `s`, and `c` all bytes of the router, `c` has read the call, complete and in order: `outs`, as its
serializer reads it. -/
theorem C129_over_bytes {n : Net} (h : Run w k n) (hb : n.core.bh.length ≤ 2 ^ 53) (hd : n.core.dh.length ≤ 2 ^ 53)
    {c q g : Nat} {o : GoMap} {u : Str} {wo : List Str} {rnd : Nat} {after before : List Dealer.Event}
    (he : n.core.dh = after ++ ⟨.receive c (.register q o u) wo rnd, .ok (.msg (.registered q g) c)⟩ :: before)
    (hsingle : ∀ s r o, .register r o u ∈ heard k n s → o.text (str "invoke") = [] ∨ o.text (str "invoke") = str "single")
    (hu : ∀ q, .unregister q g ∉ n.core.sent c) (hc : Stays n.core c) {s r : Nat}
    (hnew : ∀ e ∈ before, ∀ o p a k bin wo rnd, e.op ≠ .receive s (.call r o p a k bin) wo rnd)
    (hparts : ∀ o p a kw bin, .call r o p a kw bin ∈ heard k n s → p = u ∧ o.flag (str "progress") = true)
    (ht : n.TakenAll s) (hr : n.ReadAll c) :
    ∃ i outs, AllHandedOn i g ((heard k n s).filter (isPart r)) outs ∧ (n.got c).filter (invokes i) = outs.map (received (k c).norm) := by
  obtain ⟨l, hl, ha⟩ := run_at h
  rw [← ha.sim.dh] at he hd
  rw [← ha.sim.bh] at hb
  obtain ⟨l0, act, l1, as, h1, h2, h3, h4, h5⟩ := reach_backD hl he
  obtain ⟨so, rest, rfl, hup⟩ := h5 _ _ _ _ rfl
  have hdh : l1.sys.dh = ⟨.receive c (.register q o u) wo rnd, .ok (.msg (.registered q g) c)⟩ :: before := by
    cases tstep h2 with
    | other e1 e2 e3 =>
      exfalso
      refine e2 (c, .register q o u) ?_ trivial
      simp only [Log.taken, h2, List.append_nil, hup]
      exact .head _
    | dealer p m rest' wo' rnd' e1 e2 e3 e4 e5 e6 e7 e8 =>
      obtain ⟨t, ht⟩ := (run_grows as h3).2.1
      rw [he, e7, h4] at ht
      have h6 := (List.append_inj' ht rfl).2
      rw [e7, h4, h6]
  obtain ⟨i, key⟩ := gets_the_call (h1.act _ h2) h3 hb hd (by rw [hdh]; exact .head _) ⟨q, o, wo, rnd, q, c, rfl⟩
    (fun s q o hm => hsingle s q o (ha.heard.1 hm)) (fun q hm => hu q (ha.unregister.1 hm)) (ha.stays.2 hc)
    (by
      rw [hdh]
      intro e he o p a k bin wo rnd hop
      rcases List.mem_cons.1 he with rfl | he
      · cases hop
      · exact hnew e he _ _ _ _ _ _ _ hop)
    (fun o p a kw bin hm => hparts o p a kw bin (ha.heard.1 hm)) (ha.up ht) (ha.down hr) (s := s) (r := r)
  refine ⟨i, _, ?_, by rw [ha.got, invokes_received]⟩
  have : l.outbox s = heard k n s := by
    rw [Log.outbox, ha.sim.sent, heard, List.map_reverse]
  rw [← this]
  exact key

/-- Client 2 (MsgPack) registers "p"; client 1 (CBOR) calls it in three parts. -/
def callingParts : List Cmd :=
  [.join (Dealer.who 1), .join (Dealer.who 2)] ++ sends 2 (newRegister 1 none (str "p")) ++ [.down 2 100, .deliver 2] ++
  sends 1 (newCall 7 (some [(str "progress", .bool true)]) (str "p") (some [.str (str "a")]) none) ++
  sends 1 (newCall 7 (some [(str "progress", .bool true)]) (str "p") (some [.str (str "b")]) none) ++ [.down 2 100, .deliver 2] ++
  sends 1 (newCall 7 (some [(str "progress", .bool true)]) (str "p") (some [.str (str "c")]) none) ++ [.down 2 1000, .deliver 2, .deliver 2]

/-- Client 2 got registration 1 of "p". -/
def isTheReg (e : Dealer.Event) : Bool :=
  match e with
  | ⟨.receive 2 (.register 1 _ u) _ _, .ok (.msg (.registered 1 1) 2)⟩ => u = str "p"
  | _ => false

theorem isTheReg_some {e : Dealer.Event} (h : isTheReg e = true) : ∃ o wo rnd,
    e = ⟨.receive 2 (.register 1 o (str "p")) wo rnd, .ok (.msg (.registered 1 1) 2)⟩ := by
  unfold isTheReg at h
  split at h
  · have := of_decide_eq_true h
    subst this
    exact ⟨_, _, _, rfl⟩
  · cases h

/-- A REGISTER with a plain policy, or a progressive CALL of "p", or a GOODBYE. -/
def fine : Msg → Bool
  | .register _ o _ => o.text (str "invoke") = []
  | .call _ o p _ _ _ => p = str "p" ∧ o.flag (str "progress") = true
  | .unregister .. => false
  | _ => true

example : ∃ n o wo rnd after before, Run Dealer.noWild mixed n ∧ n.core.bh.length ≤ 2 ^ 53 ∧ n.core.dh.length ≤ 2 ^ 53 ∧
    n.core.dh = after ++ ⟨.receive 2 (.register 1 o (str "p")) wo rnd, .ok (.msg (.registered 1 1) 2)⟩ :: before ∧
    (∀ s r o, .register r o (str "p") ∈ heard mixed n s → o.text (str "invoke") = [] ∨ o.text (str "invoke") = str "single") ∧
    (∀ q, .unregister q 1 ∉ n.core.sent 2) ∧ Stays n.core 2 ∧
    (∀ e ∈ before, ∀ o p a k bin wo rnd, e.op ≠ .receive 1 (.call 7 o p a k bin) wo rnd) ∧
    (∀ o p a kw bin, .call 7 o p a kw bin ∈ heard mixed n 1 → p = str "p" ∧ o.flag (str "progress") = true) ∧ n.TakenAll 1 ∧ n.ReadAll 2 ∧
    ((heard mixed n 1).filter (isPart 7)).length = 3 ∧
    (n.got 2).map givenTo = [(0, false, []), (2, true, str "a"), (2, true, str "b"), (2, true, str "c")] := by
  have hb : (after callingParts).core.bh.length ≤ 2 ^ 53 := by decide +kernel
  have hd : (after callingParts).core.dh.length ≤ 2 ^ 53 := by decide +kernel
  obtain ⟨after', e, before, e1, e2, e3⟩ := split_first isTheReg (after callingParts).core.dh (by decide +kernel)
  obtain ⟨o, wo, rnd, rfl⟩ := isTheReg_some e2
  have hfine : ∀ s, ∀ m ∈ heard mixed (after callingParts) s, fine m = true := by
    intro s m hm
    have hj : (after callingParts).core.joined = [2, 1] := by decide +kernel
    have hq : ∀ s ∈ [2, 1], (heard mixed (after callingParts) s).all fine = true := by decide +kernel
    by_cases hs : s ∈ (after callingParts).core.joined
    · rw [hj] at hs
      exact List.all_eq_true.1 (hq s hs) m hm
    · rw [heard, (net_joined (run_after _) hb hd s hs).1] at hm; cases hm
  refine ⟨after callingParts, o, wo, rnd, after', before, run_after _, hb, hd, e1, ?_, ?_, stays_of (by decide +kernel), ?_, ?_,
    ⟨by decide +kernel, by decide +kernel⟩, ⟨by decide +kernel, by decide +kernel⟩, by decide +kernel, by decide +kernel⟩
  · intro s r o hm
    exact .inl (of_decide_eq_true (hfine s _ hm))
  · intro q hm
    have := hfine 2 (.unregister q 1) (List.mem_map.2 ⟨_, List.mem_reverse.2 hm, rfl⟩)
    cases this
  · intro e he o p a k bin wo rnd hop
    have hq : ((after callingParts).core.dh.dropWhile (fun x => !isTheReg x)).tail.all
        (fun e => match e.op with | .receive _ m _ _ => !isPart 7 m | _ => true) = true := by decide +kernel
    rw [← e3] at hq
    have h4 := List.all_eq_true.1 hq e he
    rw [hop] at h4
    cases h4
  · intro o p a kw bin hm
    exact of_decide_eq_true (hfine 1 _ hm)

end Wamp.Net
