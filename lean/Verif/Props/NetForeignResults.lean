import Verif.Props.NetForeignAgree
import Verif.Props.NetParts
/-!
# C137: results and calls made in parts arrive, whatever bytes others write
-/
namespace Wamp.System
open Wamp Session

variable {w : Str → Str → Bool} {F : Nat → Bool}

private theorem move_either {l l' : Log} {v : Move} (h : l.move w F v = some l') :
    (∃ a, v = .act a ∧ l.act w a = some l' ∧ l.takenFrom w F [v] = l.taken w [a]) ∨
    ∃ s m, v = .inject s m ∧ l.takenFrom w F [v] = [] ∧
      l' = { l with sys := { l.sys with up := upd l.sys.up s (l.sys.up s ++ [m]), sent := upd l.sys.sent s (m :: l.sys.sent s) } } := by
  cases v with
  | act a =>
    have ha : l.act w a = some l' := by
      cases a <;> simp only [Log.move] at h <;> first | exact h | skip
      split at h
      · cases h
      · exact h
    refine .inl ⟨a, rfl, ha, ?_⟩
    simp only [Log.takenFrom, Log.taken, h, ha, List.append_nil]
    cases a <;> rfl
  | inject s m =>
    refine .inr ⟨s, m, rfl, by simp only [Log.takenFrom, h, List.append_nil], ?_⟩
    simp only [Log.move] at h
    split at h
    · cases h; rfl
    · cases h

private theorem move_sent {l l' : Log} {v : Move} (h : l.move w F v = some l') (s : Nat) : l.sys.sent s <:+ l'.sys.sent s := by
  rcases move_either h with ⟨a, -, ha, -⟩ | ⟨p, m, -, -, rfl⟩
  · exact (change_grows (log_change ha)).2.2 s
  · simp only [upd]
    split
    · rename_i e; subst e; exact List.suffix_cons _ _
    · exact List.suffix_refl _

private theorem moves_sent {l l' : Log} (vs : List Move) (h : l.moves w F vs = some l') (s : Nat) : l.sys.sent s <:+ l'.sys.sent s := by
  induction vs generalizing l with
  | nil => cases h; exact List.suffix_refl _
  | cons v vs ih =>
    obtain ⟨z, h1, h2⟩ := Option.bind_eq_some_iff.1 h
    exact (move_sent h1 s).trans (ih h2)

theorem moves_hist {l l' : Log} (vs : List Move) (h : l.moves w F vs = some l') :
    l.sys.bh <:+ l'.sys.bh ∧ l.sys.dh <:+ l'.sys.dh ∧ ∀ s, l.inbox s <+: l'.inbox s := by
  induction vs generalizing l with
  | nil => cases h; exact ⟨List.suffix_refl _, List.suffix_refl _, fun _ => List.prefix_refl _⟩
  | cons v vs ih =>
    obtain ⟨z, h1, h2⟩ := Option.bind_eq_some_iff.1 h
    obtain ⟨i1, i2, i3⟩ := ih h2
    rcases move_either h1 with ⟨a, -, ha, -⟩ | ⟨p, m, -, -, rfl⟩
    · obtain ⟨g1, g2, -, g4⟩ := run_grows [a] (w := w) (l := l) (l' := z) (by simp only [Log.run, ha, Option.bind_some])
      exact ⟨g1.trans i1, g2.trans i2, fun s => (g4 s).trans (i3 s)⟩
    · exact ⟨i1, i2, i3⟩

/-- What the router takes was sent; and it takes the messages of each client in the order in which that client sent them. -/
theorem moves_taken (vs : List Move) {l l' : Log} (h : Log.Open w F l) (hrun : l.moves w F vs = some l') :
    (∀ q ∈ l.takenFrom w F vs, q.2 ∈ l'.sys.sent q.1) ∧
    ∀ c, ∃ new, l'.outbox c = l.outbox c ++ new ∧ l.sys.up c ++ new = ((l.takenFrom w F vs).filter (·.1 = c)).map (·.2) ++ l'.sys.up c := by
  induction vs generalizing l with
  | nil =>
    cases hrun
    exact ⟨fun _ h => (nomatch h), fun c => ⟨[], (List.append_nil _).symm, List.append_nil _⟩⟩
  | cons v vs ih =>
    obtain ⟨z, hv, hrun⟩ := Option.bind_eq_some_iff.1 hrun
    obtain ⟨i1, i2⟩ := ih (h.move v hv) hrun
    have hsub := moves_sent vs hrun
    have hS := open_sent h
    have one : (∀ q ∈ l.takenFrom w F [v], q.2 ∈ z.sys.sent q.1) ∧
        ∀ c, ∃ new, z.outbox c = l.outbox c ++ new ∧ l.sys.up c ++ new = ((l.takenFrom w F [v]).filter (·.1 = c)).map (·.2) ++ z.sys.up c := by
      rcases move_either hv with ⟨a, rfl, ha, et⟩ | ⟨p, m, rfl, et, rfl⟩
      · rw [et]
        rcases up_step ha with ⟨p, data, m, -, e1, e2, e3⟩ | ⟨p, _, _, _, m, rest, -, e0, e1, e2, e3⟩ | ⟨e1, e2, e3⟩
        · rw [e3]
          refine ⟨fun _ h => (nomatch h), fun c => ?_⟩
          simp only [Log.outbox, e1, e2, upd]
          split
          · rename_i e; subst e; exact ⟨[m], by rw [List.reverse_cons], rfl⟩
          · exact ⟨[], (List.append_nil _).symm, List.append_nil _⟩
        · rw [e3]
          refine ⟨fun q hq => ?_, fun c => ⟨[], by rw [Log.outbox, e2]; exact (List.append_nil _).symm, ?_⟩⟩
          · cases List.mem_singleton.1 hq
            rw [e2]
            exact hS.up p m (by rw [e0]; exact .head _)
          · rw [e1, List.append_nil]
            simp only [upd]
            by_cases e : c = p
            · subst e; simp [e0]
            · simp [e, Ne.symm e]
        · rw [e3, e1]
          exact ⟨fun _ h => (nomatch h), fun c => ⟨[], by rw [Log.outbox, e2]; exact (List.append_nil _).symm, List.append_nil _⟩⟩
      · rw [et]
        refine ⟨fun _ h => (nomatch h), fun c => ?_⟩
        simp only [Log.outbox, upd]
        split
        · rename_i e; subst e; exact ⟨[m], by rw [List.reverse_cons], rfl⟩
        · exact ⟨[], (List.append_nil _).symm, List.append_nil _⟩
    have htk := Net.takenFrom_cons hv vs
    refine ⟨fun q hq => ?_, fun c => ?_⟩
    · rw [htk] at hq
      rcases List.mem_append.1 hq with hq | hq
      · exact (hsub q.1).subset (one.1 q hq)
      · exact i1 q hq
    · obtain ⟨n1, e1, e2⟩ := one.2 c
      obtain ⟨n2, e3, e4⟩ := i2 c
      refine ⟨n1 ++ n2, by rw [e3, e1, List.append_assoc], ?_⟩
      rw [htk, List.filter_append, List.map_append, ← List.append_assoc, e2, List.append_assoc, e4, List.append_assoc]

/-- What the router has taken of a client it took in order, and what is for the dealer was given to it. -/
theorem open_given {l : Log} (h : Log.Open w F l) (c : Nat) :
    ∃ old, l.outbox c = old ++ l.sys.up c ∧ ∀ m ∈ old, forDealer m → ∃ e ∈ l.sys.dh, ∃ wo rnd, e.op = .receive c m wo rnd := by
  induction h with
  | new => exact ⟨[], rfl, fun _ h => nomatch h⟩
  | move v hl hv ih =>
    rename_i l l'
    obtain ⟨old, e, ih⟩ := ih
    rcases move_either hv with ⟨a, -, ha, -⟩ | ⟨p, m, -, -, rfl⟩
    · have hsub := (change_hist (log_change ha)).2
      have keep : ∀ m ∈ old, forDealer m → ∃ e ∈ l'.sys.dh, ∃ wo rnd, e.op = .receive c m wo rnd := fun m hm hi => by
        obtain ⟨e, he, h⟩ := ih m hm hi
        exact ⟨e, hsub.subset he, h⟩
      rcases up_step ha with ⟨p, data, m, -, e1, e2, e3⟩ | ⟨p, _, _, _, m, rest, -, e0, e1, e2, e3⟩ | ⟨e1, e2, e3⟩
      · refine ⟨old, ?_, keep⟩
        simp only [Log.outbox, e1, e2, upd] at e ⊢
        split
        · rename_i ep; subst ep; rw [List.reverse_cons, e, List.append_assoc]
        · exact e
      · by_cases ep : c = p
        · subst ep
          refine ⟨old ++ [m], ?_, fun m' hm hi => ?_⟩
          · simp only [Log.outbox, e1, e2, upd, if_true] at e ⊢
            rw [e, e0, List.append_assoc]; rfl
          · rcases List.mem_append.1 hm with hm | hm
            · exact keep m' hm hi
            · cases List.mem_singleton.1 hm
              cases tstep ha with
              | other h1 h2 h3 => exact absurd hi (h2 (c, m) (by rw [e3]; exact .head _))
              | dealer p' m' rest' wo rnd h1 h2 h3 h4 h5 h6 h7 h8 =>
                rw [e3] at h4
                cases h4
                exact ⟨_, by rw [h7]; exact .head _, wo, rnd, rfl⟩
        · refine ⟨old, ?_, keep⟩
          simp only [Log.outbox, e1, e2, upd, if_neg ep] at e ⊢
          exact e
      · refine ⟨old, ?_, keep⟩
        simp only [Log.outbox, e1, e2] at e ⊢
        exact e
    · refine ⟨old, ?_, ih⟩
      simp only [Log.outbox, upd] at e ⊢
      split
      · rename_i ep; subst ep; rw [List.reverse_cons, e, List.append_assoc]
      · exact e

/-- Back to the state before a call on the dealer. -/
theorem open_backD {l : Log} (h : Log.Open w F l) {e : Dealer.Event} {after before : List Dealer.Event} (he : l.sys.dh = after ++ e :: before) :
    ∃ l0 a l1 vs, Log.Open w F l0 ∧ l0.act w a = some l1 ∧ l0.move w F (.act a) = some l1 ∧ l1.moves w F vs = some l ∧ l0.sys.dh = before ∧ l1.sys.dh = e :: before ∧
      ∀ s m wo rnd, e.op = .receive s m wo rnd → ∃ so rest, a = .route s wo so rnd ∧ l0.sys.up s = m :: rest := by
  induction h generalizing after with
  | new => cases after <;> cases he
  | move v hl hv ih =>
    rename_i l l'
    rcases move_either hv with ⟨a, rfl, ha, -⟩ | ⟨p, m, -, -, rfl⟩
    · rcases Net.act_dealer ha with e1 | ⟨e', e1, e2⟩
      · rw [e1] at he
        obtain ⟨l0, a0, l1, vs, h1, h2, h2', h3, h4⟩ := ih he
        exact ⟨l0, a0, l1, vs ++ [.act a], h1, h2, h2', Net.moves_snoc vs h3 hv, h4⟩
      · cases after with
        | nil =>
          rw [e1] at he
          cases he
          exact ⟨l, a, l', [], hl, ha, hv, rfl, rfl, e1, e2⟩
        | cons x after =>
          rw [e1] at he
          obtain ⟨l0, a0, l1, vs, h1, h2, h2', h3, h4⟩ := ih (List.cons.inj he).2
          exact ⟨l0, a0, l1, vs ++ [.act a], h1, h2, h2', Net.moves_snoc vs h3 hv, h4⟩
    · obtain ⟨l0, a0, l1, vs, h1, h2, h2', h3, h4⟩ := ih he
      exact ⟨l0, a0, l1, vs ++ [v], h1, h2, h2', Net.moves_snoc vs h3 hv, h4⟩

end Wamp.System

namespace Wamp.Net
open Wamp Wamp.System Wamp.Spec Wamp.Session

variable {w : Str → Str → Bool} {k : Nat → Kind} {F : Nat → Bool}

/-- **C137** The dealer has been given CALL `r` of `s` and has sent INVOCATION `i` to `c`, who alone answers it, and not before.  Once the router
has read all bytes of `c`, and `s` all bytes of the router, `s` has read what `c` yielded, all of it and in the same order: `outs`, as its
serializer reads it.  The callee may be foreign. -/
theorem C137_results {n : Net} (h : OpenRun w k F n) (hb : n.core.bh.length < 2 ^ 53) (hd : n.core.dh.length ≤ 2 ^ 53)
    {s r : Nat} (hF : F s = false) {o : GoMap} {u : Str} {a : GoSlice} {kw : GoMap} {bin : Bin} {wo : List Str} {rnd : Nat}
    {c i g : Nat} {d : GoMap} {a' : GoSlice} {k' : GoMap} {bin' : Bin} {after before : List Dealer.Event}
    (he : n.core.dh = after ++ ⟨.receive s (.call r o u a kw bin) wo rnd, .ok (.msg (.invocation i g d a' k' bin') c)⟩ :: before)
    (hf : Fresh n.core s) (hs : Stays n.core s) (honly : ∀ p, ∀ m ∈ n.core.sent p, answersInvocation i m → p = c)
    (hbefore : ∀ e ∈ before, ∀ m wo rnd, e.op = .receive c m wo rnd → ¬answersInvocation i m) (hc : F c = false → n.TakenAll c) (hr : n.ReadAll s) :
    ∃ outs, AllPassedOn (o.flag (str "receive_progress")) r (answersTo (o.flag (str "receive_progress")) i (heardFrom F k n c)) outs ∧
      (n.got s).filter (answersCall r) = outs.map (received (k s).norm) := by
  obtain ⟨l, hl, ha⟩ := open_at h
  rw [← ha.sim.dh] at he hd
  rw [← ha.sim.bh] at hb
  obtain ⟨l0, act, l1, vs, h1, h2, h2', h3, h4, h4', h5⟩ := open_backD hl he
  obtain ⟨so, rest, rfl, hup⟩ := h5 _ _ _ _ rfl
  have hinv : l1.inbox c = l0.inbox c ++ [.invocation i g d a' k' bin'] := by
    cases tstep h2 with
    | other e1 e2 e3 =>
      exfalso
      refine e2 (s, .call r o u a kw bin) ?_ trivial
      simp only [Log.taken, h2, List.append_nil, hup]
      exact .head _
    | dealer p m rest' wo' rnd' e1 e2 e3 e4 e5 e6 e7 e8 =>
      rw [e7] at h4'
      injection h4' with h6 _
      injection h6 with h6 h7
      rw [e8, h7, dealerOut, messagesFor_one, if_pos rfl]
  have key := C131_results_passed_on h1 hF hup h2 hinv h3 hb hd (ha.fresh hf) (ha.stays.2 hs)
  obtain ⟨t1, t2⟩ := moves_taken vs (h1.move _ h2') h3
  obtain ⟨new, e1, e2⟩ := t2 c
  obtain ⟨old, e3, e4⟩ := open_given h1 c
  have h3 : ∃ old', l1.outbox c = old' ++ l1.sys.up c ∧ ∀ m ∈ old', ¬answersInvocation i m := by
    rcases up_step h2 with ⟨p, data, m, e, -⟩ | ⟨p, _, _, _, m, rest', e, f1, f2, f3, -⟩ | ⟨-, -, e⟩
    · cases e
    · cases e
      rw [hup] at f1
      cases f1
      have hold : ∀ m ∈ old, ¬answersInvocation i m := fun m hm hi => by
        obtain ⟨e, he, wo, rnd, h⟩ := e4 m hm (answers_dealer hi)
        exact hbefore e (h4 ▸ he) m wo rnd h hi
      by_cases ep : c = s
      · subst ep
        refine ⟨old ++ [.call r o u a kw bin], ?_, fun m hm => ?_⟩
        · simp only [Log.outbox, f2, f3, upd, if_true] at e3 ⊢
          rw [e3, hup, List.append_assoc]; rfl
        · rcases List.mem_append.1 hm with hm | hm
          · exact hold m hm
          · cases List.mem_singleton.1 hm; exact id
      · refine ⟨old, ?_, hold⟩
        simp only [Log.outbox, f2, f3, upd, if_neg ep] at e3 ⊢
        exact e3
    · simp only [Log.taken, h2, List.append_nil, hup] at e
      cases e
  obtain ⟨old', e5, e6⟩ := h3
  have only : ∀ p, ∀ m ∈ l.sys.sent p, answersInvocation i m → p = c := by
    intro p m hm hi
    rw [ha.sim.sent, List.mem_map] at hm
    obtain ⟨m0, hm0, rfl⟩ := hm
    refine honly p m0 hm0 ?_
    simp only [reading] at hi
    split at hi
    · exact hi
    · exact (answersInvocation_received _ _ _).1 hi
  have hcu : l.sys.up c = [] := by
    cases hFc : F c with
    | false => exact ha.up hFc (hc hFc)
    | true => exact ha.sim.idle c hFc
  rw [answersTo_from (c := c) fun q hq ha => only q.1 q.2 (t1 q hq) ha] at key
  rw [hcu, List.append_nil] at e2
  rw [← e2] at key
  refine ⟨(l.inbox s).filter (answersCall r), ?_, by rw [ha.inbox hF hr, filter_received]⟩
  rw [← ha.heard, e1, e5, List.append_assoc, answersTo_skip e6]
  exact key

/-- **C137** The dealer has given client `c` registration `g` of `u`, an exclusive one, and `c` neither gives it up nor is removed; until then
the dealer had no CALL with request ID `r` of `s`.  All CALLs with that ID that the router reads from `s` are for `u` and marked as progressive.
Once the router has read all bytes of `s`, and `c` all bytes of the router, `c` has read the call, complete and in order: `outs`, as its
serializer reads it.  Neither `s` nor `c` is foreign. -/
theorem C137_parts {n : Net} (h : OpenRun w k F n) (hb : n.core.bh.length < 2 ^ 53) (hd : n.core.dh.length ≤ 2 ^ 53)
    {c q g : Nat} (hFc : F c = false) {o : GoMap} {u : Str} {wo : List Str} {rnd : Nat} {after before : List Dealer.Event}
    (he : n.core.dh = after ++ ⟨.receive c (.register q o u) wo rnd, .ok (.msg (.registered q g) c)⟩ :: before)
    (hq : ∀ o p, .register q o p ∈ n.core.sent c → p = u)
    (hsingle : ∀ s r o, .register r o u ∈ heardFrom F k n s → o.text (str "invoke") = [] ∨ o.text (str "invoke") = str "single")
    (hu : ∀ q, .unregister q g ∉ n.core.sent c) (hc : Stays n.core c) {s r : Nat} (hF : F s = false)
    (hnew : ∀ e ∈ before, ∀ o p a k bin wo rnd, e.op ≠ .receive s (.call r o p a k bin) wo rnd)
    (hparts : ∀ o p a kw bin, .call r o p a kw bin ∈ heardFrom F k n s → p = u ∧ o.flag (str "progress") = true)
    (ht : n.TakenAll s) (hr : n.ReadAll c) :
    ∃ i outs, AllHandedOn i g ((heardFrom F k n s).filter (isPart r)) outs ∧ (n.got c).filter (invokes i) = outs.map (received (k c).norm) := by
  obtain ⟨l, hl, ha⟩ := open_at h
  rw [← ha.sim.dh] at he hd
  rw [← ha.sim.bh] at hb
  obtain ⟨l0, act, l1, vs, h1, h2, h2', h3, h4, h4', h5⟩ := open_backD hl he
  have hinbox : .registered q g ∈ l1.inbox c := (open_out (h1.move _ h2')).dout _ (by rw [h4']; exact .head _) c _ (.head _)
  obtain ⟨x0, r0, k0⟩ := open_like (h1.move _ h2') (Nat.lt_of_le_of_lt (moves_bh vs h3).1 hb)
  obtain ⟨as, x1, r1, k1, -⟩ := moves_like k0 r0 vs h3 hb
  obtain ⟨i, key⟩ := C129_callee_gets_the_call r0 r1 (Nat.le_of_lt (k1.bhLen hb)) (k1.dhLen hd) (k0.inbox c ▸ hinbox)
    (fun o p hm => by
      obtain ⟨m0, hm0, e⟩ := (ha.mem_own hFc).1 (k1.mem hm)
      cases m0 <;> simp only [received, reduceCtorEq] at e
      cases e
      exact hq _ _ hm0)
    (fun s q o hm => hsingle s q o (ha.mem_heard.1 (k1.mem hm))) (fun q hm => hu q ((ha.unregister hFc).1 (k1.mem hm)))
    (k1.stays (ha.stays.2 hc)) (s := s) (r := r)
    (by
      intro e he o p a k bin wo rnd hop
      have := k0.dh.mem he
      rw [h4'] at this
      rcases List.mem_cons.1 this with rfl | he
      · cases hop
      · exact hnew e he _ _ _ _ _ _ _ hop)
    (fun o p a kw bin hm => hparts o p a kw bin (ha.mem_heard.1 (k1.mem hm)))
    (by rw [k1.up s hF]; exact ha.up hF ht) (by rw [k1.down c hFc]; exact ha.down hFc hr)
  refine ⟨i, _, ?_, by rw [ha.got, invokes_received, ← k1.got c hFc]⟩
  rw [← ha.heard, Log.outbox, ← k1.sent s hF]
  exact key

/-- **C137** When a client of this library has read all bytes of the router, its `Session` accepts INVOCATIONs under an ID exactly if the router sends it the
calls of a procedure under that ID, if nobody, of either kind, asks for a shared registration of a procedure that it registers. -/
theorem C137_owner {n : Net} (h : OpenRun w k F n) (hb : n.core.bh.length < 2 ^ 53) (hlen : n.core.dh.length ≤ 2 ^ 53) (s : Nat) (hF : F s = false)
    (hf : Fresh n.core s) (hs : Stays n.core s) (hd : n.ReadAll s)
    (hsingle : ∀ r o p, .register r o p ∈ heardFrom F k n s → ∀ s' r' o', .register r' o' p ∈ heardFrom F k n s' →
      o'.text (str "invoke") = [] ∨ o'.text (str "invoke") = str "single")
    (i g : Nat) (d : GoMap) (a : GoSlice) (kw : GoMap) (bin : Bin) :
    Accepts (n.core.client s) (.invocation i g d a kw bin) ↔ ∃ p, Dealer.owner n.core.dh p = some (s, g) := by
  obtain ⟨l, hl, ha⟩ := open_at h
  rw [← ha.sim.client, ← ha.sim.dh]
  exact C131_owner hl (by rwa [ha.sim.bh]) (by rwa [ha.sim.dh]) s hF (ha.fresh hf) (ha.stays.2 hs) (ha.down hF hd)
    (fun r o p hm s' r' o' hm' => hsingle r o p (ha.mem_heard.1 hm) s' r' o' (ha.mem_heard.1 hm')) i g d a kw bin

/-- **C137** Client `c` has registered `p` with the "single" policy under ID `g` and has not sent an UNREGISTER for it: every CALL of `p` that
the dealer is given since reaches `c` as an INVOCATION of `g` with the args and kwargs of the CALL. -/
theorem C137_calls_arrive {n : Net} (h : OpenRun w k F n) (hb : n.core.bh.length < 2 ^ 53) (hd : n.core.dh.length ≤ 2 ^ 53) (c r g : Nat) (hFc : F c = false) (p : Str)
    (s q : Nat) (o : GoMap) (a : GoSlice) (kw : GoMap) (wo : List Str) (rnd : Nat) (res : Res Dealer.Out) (after before : List Dealer.Event)
    (he : n.core.dh = after ++ ⟨.receive s (.call q o p a kw Bin.none) wo rnd, res⟩ :: before)
    (hreg : ∃ o' wo' rnd', ⟨.receive c (.register r o' p) wo' rnd', .ok (.msg (.registered r g) c)⟩ ∈ before)
    (hr : ∀ o' p', .register r o' p' ∈ n.core.sent c → p' = p)
    (hsingle : ∀ s r o, .register r o p ∈ heardFrom F k n s → o.text (str "invoke") = [] ∨ o.text (str "invoke") = str "single")
    (hu : ∀ q, .unregister q g ∉ n.core.sent c) (hc : Stays n.core c) (hs : Stays n.core s) (hread : n.ReadAll c) :
    ∃ i d, .invocation i g d (onArgs (k c).norm a kw) (onMap (k c).norm kw) Bin.none ∈ n.got c := by
  obtain ⟨l, hl, ha⟩ := open_at h
  rw [← ha.sim.dh] at he hd
  rw [← ha.sim.bh] at hb
  obtain ⟨l0, act, l1, vs, h1, h2, h2', h3, h4, h4', h5⟩ := open_backD hl he
  obtain ⟨so, rest, rfl, hup⟩ := h5 _ _ _ _ rfl
  obtain ⟨c1, c2⟩ := change_hist (log_change h2)
  obtain ⟨g1, g2, g4⟩ := moves_hist vs h3
  have back : ∀ {s}, Stays n.core s → Stays l0.sys s := fun hs =>
    ⟨fun e he => (ha.stays.2 hs).1 e (g1.subset (c1.subset he)), fun e he => (ha.stays.2 hs).2 e (g2.subset (c2.subset he))⟩
  have sent : ∀ {s m}, m ∈ l0.sys.sent s → m ∈ l.sys.sent s := fun hm => (moves_sent vs h3 _).subset ((move_sent h2' _).subset hm)
  have hinbox : .registered r g ∈ l0.inbox c := by
    obtain ⟨o', wo', rnd', hm⟩ := hreg
    exact (open_out h1).dout _ (by rw [h4]; exact hm) c _ (.head _)
  have hlen : l0.sys.dh.length < 2 ^ 53 := by
    rw [h4]
    rw [he] at hd
    simp only [List.length_append, List.length_cons] at hd
    omega
  obtain ⟨l1', e1, ⟨i, d, a', k', bin', e2, e3⟩, -⟩ := C131_stays_callable h1 (Nat.lt_of_le_of_lt (c1.trans g1).length_le hb) hlen c r g p hinbox
    (fun o' p' hm => by
      obtain ⟨m0, hm0, e⟩ := (ha.mem_own hFc).1 (sent hm)
      cases m0 <;> simp only [received, reduceCtorEq] at e
      cases e
      exact hr _ _ hm0)
    (fun s q o hm => hsingle s q o (ha.mem_heard.1 (sent hm))) (fun q hm => hu q ((ha.unregister hFc).1 (sent hm))) (back hc) s q (back hs) o a kw Bin.none rest wo so rnd hup
  rw [h2'] at e1
  cases e1
  rcases e3 with ⟨rfl, rfl, rfl⟩ | ⟨hc, -⟩
  · refine ⟨i, onMap (k c).norm d, ?_⟩
    rw [ha.inbox hFc hread]
    exact List.mem_map.2 ⟨_, (g4 c).subset (by rw [e2]; exact List.mem_append_right _ (.head _)), rfl⟩
  · cases hc

theorem open_not_joined {n : Net} (h : OpenRun w k F n) (hb : n.core.bh.length < 2 ^ 53) {s : Nat} (hF : F s = false) (hs : s ∉ n.core.joined) : n.core.sent s = [] := by
  obtain ⟨l, hl, ha⟩ := open_at h
  obtain ⟨x, r0, k0⟩ := open_like hl (by rwa [ha.sim.bh])
  refine List.eq_nil_iff_forall_not_mem.2 fun m hm => hs ?_
  rw [← ha.sim.joined, ← k0.joined]
  refine sender_joined r0 (Nat.le_of_lt (k0.bhLen (by rwa [ha.sim.bh]))) (m := reading F (fun s => (k s).norm) s m) ?_
  rw [k0.sent s hF, ha.sim.sent]
  exact List.mem_map_of_mem hm

/-- Client 3 writes a frame that holds no message, which the router drops, forged messages, and bytes that are no frame. -/
def disturb : List OpenCmd :=
  [.write 3 [0, 0, 0, 2, 0xc1, 0xff], .cmd (.up 3 3), .cmd (.up 3 100), .drop 3] ++
  forges (.register 5 (some []) (str "p")) ++ forges (.result 7 (some []) none none Bin.none) ++ forges (.yield 99 (some []) none none Bin.none) ++
  forges (.call 9 (some []) (str "p") none none Bin.none)

/-- Client 2 registers "p"; client 1 calls it and wants progressive results; client 2 yields twice with "progress" and once without; meanwhile client 3
does what it can. -/
def yieldingSiege : List OpenCmd :=
  List.map .cmd ([.join (Dealer.who 1), .join (Dealer.who 2), .join (Dealer.who 3)] ++ sends 2 (newRegister 1 none (str "p")) ++ [.down 2 100, .deliver 2] ++
    sends 1 (newCall 7 (some [(str "receive_progress", .bool true)]) (str "p") none none) ++ [.down 2 100, .deliver 2] ++
    sends 2 (newYield 2 (some [(str "progress", .bool true)]) (some [.str (str "a")]) none)) ++ disturb ++
  List.map .cmd (sends 2 (newYield 2 (some [(str "progress", .bool true)]) (some [.str (str "b")]) none) ++
    sends 2 (newYield 2 none (some [.str (str "c")]) none) ++ [.down 1 1000, .deliver 1, .deliver 1, .deliver 1, .down 2 1000, .deliver 2])

/-- Client 2 registers "p"; client 1 calls it in three parts; meanwhile client 3 does what it can. -/
def partsSiege : List OpenCmd :=
  List.map .cmd ([.join (Dealer.who 1), .join (Dealer.who 2), .join (Dealer.who 3)] ++ sends 2 (newRegister 1 none (str "p")) ++ [.down 2 100, .deliver 2] ++
    sends 1 (newCall 7 (some [(str "progress", .bool true)]) (str "p") (some [.str (str "a")]) none)) ++ disturb ++
  List.map .cmd (sends 1 (newCall 7 (some [(str "progress", .bool true)]) (str "p") (some [.str (str "b")]) none) ++ [.down 2 100, .deliver 2] ++
    sends 1 (newCall 7 (some [(str "progress", .bool true)]) (str "p") (some [.str (str "c")]) none) ++ [.down 2 1000, .deliver 2, .deliver 2, .deliver 2])

private theorem in_siege {cs : List OpenCmd} (hb : (openAfter cs).core.bh.length < 2 ^ 53) (hj : (openAfter cs).core.joined = [3, 2, 1]) {P : Nat → Msg → Bool}
    (hq : ∀ s ∈ [3, 2, 1], ((openAfter cs).core.sent s).all (P s) = true) (s : Nat) (m : Msg) (hm : m ∈ (openAfter cs).core.sent s) : P s m = true := by
  by_cases hs : s ∈ (openAfter cs).core.joined
  · rw [hj] at hs
    exact List.all_eq_true.1 (hq s hs) m hm
  · cases hF : third s with
    | false => rw [open_not_joined (run_openAfter cs) hb hF hs] at hm; cases hm
    | true =>
      have : s = 3 := of_decide_eq_true hF
      subst this
      rw [hj] at hs
      exact absurd (.head _) hs

/-- C137_results: client 1 gets the three results. -/
example : ∃ n o u a kw bin wo rnd g d a' k' bin' after before, OpenRun Dealer.noWild mixed third n ∧ n.core.bh.length < 2 ^ 53 ∧ n.core.dh.length ≤ 2 ^ 53 ∧
    n.core.dh = after ++ ⟨.receive 1 (.call 7 o u a kw bin) wo rnd, .ok (.msg (.invocation 2 g d a' k' bin') 2)⟩ :: before ∧
    o.flag (str "receive_progress") = true ∧ Fresh n.core 1 ∧ Stays n.core 1 ∧ (∀ p, ∀ m ∈ n.core.sent p, answersInvocation 2 m → p = 2) ∧
    (∀ e ∈ before, ∀ m wo rnd, e.op = .receive 2 m wo rnd → ¬answersInvocation 2 m) ∧ n.TakenAll 2 ∧ n.ReadAll 1 ∧
    (answersTo true 2 (heardFrom third mixed n 2)).length = 3 ∧ (n.core.sent 3).map glance = [(48, 9), (0, 0), (50, 7), (0, 0)] ∧
    (n.got 1).map told = [(7, true, str "a"), (7, true, str "b"), (7, false, str "c")] ∧ (n.got 2).map glance = [(65, 1), (68, 2), (68, 3)] := by
  have hb : (openAfter yieldingSiege).core.bh.length < 2 ^ 53 := by decide +kernel
  have hd : (openAfter yieldingSiege).core.dh.length ≤ 2 ^ 53 := by decide +kernel
  obtain ⟨after', e, before, e1, e2, e3⟩ := split_first isTheCall (openAfter yieldingSiege).core.dh (by decide +kernel)
  obtain ⟨o, u, a, kw, bin, wo, rnd, g, d, a', k', bin', e4, rfl⟩ := isTheCall_some e2
  refine ⟨openAfter yieldingSiege, o, u, a, kw, bin, wo, rnd, g, d, a', k', bin', after', before, run_openAfter _, hb, hd, e1, e4, by unfold Fresh; decide +kernel,
    stays_of (by decide +kernel), ?_, ?_, ⟨by decide +kernel, by decide +kernel⟩, ⟨by decide +kernel, by decide +kernel⟩, by decide +kernel, by decide +kernel,
    by decide +kernel, by decide +kernel⟩
  · intro p m hm hi
    have h4 := in_siege hb (by decide +kernel) (P := fun s m => s == 2 || invocationOf m != some 2) (by decide +kernel) p m hm
    simp only [Bool.or_eq_true, beq_iff_eq] at h4
    rcases h4 with h4 | h4
    · exact h4
    · cases m <;> simp only [answersInvocation] at hi
      · obtain ⟨rfl, rfl⟩ := hi
        simp [invocationOf] at h4
      · subst hi
        simp [invocationOf] at h4
  · intro e he m wo rnd hop hi
    have hq : ((openAfter yieldingSiege).core.dh.dropWhile (fun x => !isTheCall x)).tail.all
        (fun e => match e.op with | .receive _ m _ _ => (invocationOf m).isNone | _ => true) = true := by decide +kernel
    rw [← e3] at hq
    have h4 := List.all_eq_true.1 hq e he
    rw [hop] at h4
    cases m <;> simp only [answersInvocation] at hi
    · obtain ⟨rfl, rfl⟩ := hi
      cases h4
    · cases h4

/-- A REGISTER with a plain policy, of "p" if client 2 sends it, or a CALL, which is a part of a call of "p" if client 1 makes it. -/
private def decent (s : Nat) : Msg → Bool
  | .register _ o p => o.text (str "invoke") = [] ∧ p = str "p"
  | .call _ o p _ _ _ => s == 3 || (p = str "p" ∧ o.flag (str "progress") = true)
  | .unregister .. => false
  | _ => true

/-- C137_parts: client 2 gets the three parts. -/
example : ∃ n o wo rnd after before, OpenRun Dealer.noWild mixed third n ∧ n.core.bh.length < 2 ^ 53 ∧ n.core.dh.length ≤ 2 ^ 53 ∧
    n.core.dh = after ++ ⟨.receive 2 (.register 1 o (str "p")) wo rnd, .ok (.msg (.registered 1 1) 2)⟩ :: before ∧
    (∀ o p, .register 1 o p ∈ n.core.sent 2 → p = str "p") ∧
    (∀ s r o, .register r o (str "p") ∈ heardFrom third mixed n s → o.text (str "invoke") = [] ∨ o.text (str "invoke") = str "single") ∧
    (∀ q, .unregister q 1 ∉ n.core.sent 2) ∧ Stays n.core 2 ∧
    (∀ e ∈ before, ∀ o p a k bin wo rnd, e.op ≠ .receive 1 (.call 7 o p a k bin) wo rnd) ∧
    (∀ o p a kw bin, .call 7 o p a kw bin ∈ heardFrom third mixed n 1 → p = str "p" ∧ o.flag (str "progress") = true) ∧ n.TakenAll 1 ∧ n.ReadAll 2 ∧
    ((heardFrom third mixed n 1).filter (isPart 7)).length = 3 ∧
    (n.got 2).map givenTo = [(0, false, []), (2, true, str "a"), (0, false, []), (2, true, str "b"), (2, true, str "c")] := by
  have hb : (openAfter partsSiege).core.bh.length < 2 ^ 53 := by decide +kernel
  have hd : (openAfter partsSiege).core.dh.length ≤ 2 ^ 53 := by decide +kernel
  obtain ⟨after', e, before, e1, e2, e3⟩ := split_first isTheReg (openAfter partsSiege).core.dh (by decide +kernel)
  obtain ⟨o, wo, rnd, rfl⟩ := isTheReg_some e2
  have hfine : ∀ s, ∀ m ∈ heardFrom third mixed (openAfter partsSiege) s, decent s m = true := by
    intro s m hm
    simp only [heardFrom, List.mem_map, List.mem_reverse] at hm
    obtain ⟨m0, hm0, rfl⟩ := hm
    exact in_siege hb (by decide +kernel) (P := fun s m => decent s (if third s then m else received (mixed s).norm m)) (by decide +kernel) s m0 hm0
  have hown : ∀ s, ∀ m ∈ (openAfter partsSiege).core.sent s, decent s m = true :=
    in_siege hb (by decide +kernel) (by decide +kernel)
  refine ⟨openAfter partsSiege, o, wo, rnd, after', before, run_openAfter _, hb, hd, e1, ?_, ?_, ?_, stays_of (by decide +kernel), ?_, ?_,
    ⟨by decide +kernel, by decide +kernel⟩, ⟨by decide +kernel, by decide +kernel⟩, by decide +kernel, by decide +kernel⟩
  · intro o p hm
    exact (of_decide_eq_true (hown 2 _ hm)).2
  · intro s r o hm
    exact .inl (of_decide_eq_true (hfine s _ hm)).1
  · intro q hm
    cases hown 2 _ hm
  · intro e he o p a k bin wo rnd hop
    have hq : ((openAfter partsSiege).core.dh.dropWhile (fun x => !isTheReg x)).tail.all
        (fun e => match e.op with | .receive _ m _ _ => !isPart 7 m | _ => true) = true := by decide +kernel
    rw [← e3] at hq
    have h4 := List.all_eq_true.1 hq e he
    rw [hop] at h4
    cases h4
  · intro o p a kw bin hm
    exact of_decide_eq_true (hfine 1 _ hm)

/-- C137_calls_arrive: the CALL of client 3 too has reached client 2, which has read it as INVOCATION 3. -/
example : ((openAfter yieldingSiege).core.dh.any fun e => match e with | ⟨.receive 3 (.call 9 _ p _ _ _) _ _, .ok (.msg (.invocation 3 1 _ _ _ _) 2)⟩ => p = str "p" | _ => false) = true ∧
    Stays (openAfter yieldingSiege).core 3 ∧ Stays (openAfter yieldingSiege).core 2 ∧ (openAfter yieldingSiege).ReadAll 2 :=
  ⟨by decide +kernel, stays_of (by decide +kernel), stays_of (by decide +kernel), by decide +kernel, by decide +kernel⟩

end Wamp.Net
