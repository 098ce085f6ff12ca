import Verif.Props.Complete
import Verif.Props.DealerRoutes
/-!
# C111, C112: every request is answered, every call is finished
-/
namespace Wamp.System
open Wamp.Session

variable {w : Str → Str → Bool}

/-! ### C111 -/

theorem answeredBy.mono {msgs msgs' : List Msg} (h : ∀ m ∈ msgs, m ∈ msgs') {m : Msg} (ha : answeredBy msgs m) : answeredBy msgs' m := by
  cases m <;> simp only [answeredBy] at ha ⊢
  case subscribe => exact ha.imp fun _ => h _
  case publish => exact fun hf => (ha hf).imp fun _ => h _
  case register =>
    rcases ha with ⟨g, hg⟩ | ⟨d, u, a, k, hg⟩
    · exact .inl ⟨g, h _ hg⟩
    · exact .inr ⟨d, u, a, k, h _ hg⟩

theorem mem_upd_cons {f : Nat → List Msg} {p s : Nat} {m m' : Msg} {rest : List Msg} (hu : f p = m :: rest) (h : m' ∈ f s) :
    m' ∈ upd f p rest s ∨ (s = p ∧ m' = m) := by
  simp only [upd]
  split
  · rename_i e
    subst e
    rw [hu] at h
    rcases List.mem_cons.1 h with h | h
    · exact .inr ⟨rfl, h⟩
    · exact .inl h
  · exact .inl h

/-- **C111** Every request of a client that stays is answered once the router has taken it: SUBSCRIBE by SUBSCRIBED, PUBLISH (if an
acknowledgement was asked for) by PUBLISHED, REGISTER by REGISTERED or ERROR; the answer is in the client's link or was taken from it. -/
theorem C111_requests_answered {l : Log} (h : Log.Reach w l) (hb : l.sys.bh.length ≤ 2 ^ 53) (s : Nat) (hs : Stays l.sys s)
    (m : Msg) (hm : m ∈ l.sys.sent s) : m ∈ l.sys.up s ∨ answeredBy (l.inbox s) m := by
  induction h generalizing m with
  | new => cases hm
  | act a hl ha ih =>
    rename_i l l'
    have hc := log_change ha
    have hb0 := Nat.le_trans (change_grows hc).1 hb
    have hs0 := Stays.back hc hs
    have ih := ih hb0 hs0
    have hin := inbox_step ha s
    have hx := log_sys hl
    have hA := reach_att hx hb0
    have hS := reach_sent hx
    have keep : ∀ {m}, m ∈ l.sys.sent s → (m ∈ l.sys.up s → m ∈ l'.sys.up s ∨ answeredBy (l'.inbox s) m) →
        m ∈ l'.sys.up s ∨ answeredBy (l'.inbox s) m := by
      intro m hm hup
      rcases ih m hm with h | h
      · exact hup h
      · exact .inr (h.mono fun _ h => hin.subset h)
    cases log_step ha with
    | admin bop dop j h1 h2 h3 => exact keep hm fun h => .inl h
    | deliver p m rest c h1 => exact keep hm fun h => .inl h
    | send p data m' c h1 =>
      simp only [upd] at hm keep ⊢
      split at hm
      · rename_i e
        subst e
        simp only [if_true] at keep ⊢
        rcases List.mem_cons.1 hm with rfl | hm
        · exact .inl (by simp)
        · exact keep hm fun h => .inl (List.mem_append.2 (.inl h))
      · rename_i e
        simp only [if_neg e] at keep ⊢
        exact keep hm fun h => .inl h
    | ignore p m' rest h1 h2 h3 =>
      refine keep hm fun h => ?_
      rcases mem_upd_cons h1 h with h | ⟨rfl, rfl⟩
      · exact .inl h
      · right
        cases m <;> simp only [callB, reduceCtorEq] at h2 <;> simp only [forDealer, not_true_eq_false] at h3 <;> trivial
    | broker p m' rest wo so op h1 h2 =>
      refine keep hm fun h => ?_
      rcases mem_upd_cons h1 h with h | ⟨rfl, rfl⟩
      · exact .inl h
      · right
        have hat : Broker.attached l.sys.bh s := hA.jb s (hA.sj s (List.ne_nil_of_mem (hS.up s _ (by rw [h1]; exact .head _)))) hs0
        have new : ∀ m, (s, m) ∈ brokerOut (Broker.step w l.sys.broker op).2 → m ∈ l.got s ++ (l.sys.down s ++
            messagesFor s (brokerOut (Broker.step w l.sys.broker op).2)) :=
          fun m hm => List.mem_append.2 (.inr (List.mem_append.2 (.inr (mem_messagesFor.2 hm))))
        simp only [List.length_cons] at hb
        cases m <;> simp only [callB, reduceCtorEq, Option.some.injEq] at h2 <;> subst h2
        case publish q o u a k =>
          intro hf
          rcases Broker.publish_result (reach_hist hx).1 hb s q o u a k wo so with ⟨hn, -⟩ | ⟨-, pub, hpub, n, -, -, hack, -⟩
          · exact absurd hat hn
          · refine ⟨n, new _ ?_⟩
            rw [if_pos hf] at hack
            simp only [Broker.step, hpub, Res.map_ok, brokerOut, hack]
            exact List.mem_append.2 (.inr (.head _))
        case subscribe q o t =>
          obtain ⟨i, hi, -⟩ := Broker.subscribe_result (w := w) (Broker.hist_inv (reach_hist hx).1 hb0) s q o t hat
          exact ⟨i, new _ (by rw [hi]; exact .head _)⟩
        case unsubscribe q g => trivial
    | dealer p m' rest wo rnd h1 h2 h3 =>
      refine keep hm fun h => ?_
      rcases mem_upd_cons h1 h with h | ⟨rfl, rfl⟩
      · exact .inl h
      · right
        have hat : Dealer.attached l.sys.dh s := hA.jd s (hA.sj s (List.ne_nil_of_mem (hS.up s _ (by rw [h1]; exact .head _)))) hs0
        have new : ∀ m', (s, m') ∈ dealerOut (Dealer.step w l.sys.dealer (.receive s m wo rnd)).2 → m' ∈ l.got s ++ (l.sys.down s ++
            messagesFor s (dealerOut (Dealer.step w l.sys.dealer (.receive s m wo rnd)).2)) :=
          fun m hm => List.mem_append.2 (.inr (List.mem_append.2 (.inr (mem_messagesFor.2 hm))))
        cases m <;> simp only [forDealer] at h2 <;> try trivial
        case register r o p =>
          rw [Dealer.attached, ← (Dealer.hist_sinv (reach_hist hx).2).bys] at hat
          rcases Dealer.register_cases l.sys.dealer s r o p with ⟨hn, -⟩ | ⟨_, -, ⟨_, -, -, e⟩ | ⟨_, -, -, e⟩ | ⟨-, e⟩⟩
          · rw [hn] at hat; cases hat
          · exact .inr ⟨_, _, _, _, new _ (by simp only [Dealer.step, Dealer.receive, e]; exact .head _)⟩
          · exact .inl ⟨_, new _ (by simp only [Dealer.step, Dealer.receive, e]; exact .head _)⟩
          · exact .inl ⟨_, new _ (by simp only [Dealer.step, Dealer.receive, e]; exact .head _)⟩

/-- Client 1 subscribes, publishes and registers; client 2 registers the same procedure; a SUBSCRIBE of client 2 is still under way. -/
def asking : List Action :=
  three ++ does 1 (.subscribe 1 none (str "t")) ++ does 1 (.publish 2 (some [(str "acknowledge", .bool true)]) (str "u") none none) ++
  does 1 (.register 3 none (str "p")) ++ does 2 (.register 1 none (str "p")) ++ [.send 2 [] (.subscribe 2 none (str "t")), .deliver 1]

example : Log.Reach Dealer.noWild (logged asking) ∧ (logged asking).sys.bh.length ≤ 2 ^ 53 ∧ Stays (logged asking).sys 1 ∧ Stays (logged asking).sys 2 ∧
    ((logged asking).inbox 1).map glance = [(33, 1), (17, 2), (65, 3)] ∧ ((logged asking).inbox 2).map glance = [(8, 1)] ∧
    (logged asking).sys.up 2 = [.subscribe 2 none (str "t")] :=
  ⟨reach_logged _, by decide +kernel, stays_of (by decide +kernel), stays_of (by decide +kernel), by decide +kernel, by decide +kernel, rfl⟩

/-- **C111** Who is removed has no answer to expect. -/
theorem C111_removed_unanswered : ∃ l, Log.Reach Dealer.noWild l ∧ (∃ m, l.sys.sent 1 = [m] ∧ ¬answeredBy (l.inbox 1) m) ∧ l.sys.up 1 = [] :=
  ⟨_, reach_logged (three ++ [.send 1 [] (.subscribe 1 none (str "t")), .leave 1 [] [], .route 1 [] [] 0]),
    ⟨.subscribe 1 none (str "t"), rfl, fun ⟨_, h⟩ => by cases h⟩, rfl⟩

/-! ### C112 -/

/-- What a call on the dealer does to the calls under way. -/
inductive PStep (b b' : Dealer.State) (e : Dealer.Event) : Prop where
  | same : b'.pending = b.pending → b'.invByCall = b.invByCall → b.idGen ≤ b'.idGen → (∀ c r i k, ¬Dealer.invoked c r i k e) →
      (∀ p m wo rnd i, e.op = .receive p m wo rnd → endsInvocation i m → b.pending.get i = none) → PStep b b' e
  | fresh (c r : Nat) (pd : Dealer.Pending) : pd.callerID = c → pd.requestID = r → b'.pending = b.pending.set (b.idGen + 1) pd →
      b'.invByCall = b.invByCall.set (c, r) (b.idGen + 1) → b'.idGen = b.idGen + 1 →
      (∀ c' r' i k, Dealer.invoked c' r' i k e → c' = c ∧ r' = r ∧ i = b.idGen + 1) →
      (∀ p m wo rnd i, e.op = .receive p m wo rnd → ¬endsInvocation i m) → PStep b b' e
  | again (c r i : Nat) : b.invByCall (c, r) = some i → b'.pending = b.pending → b'.invByCall = b.invByCall → b'.idGen = b.idGen →
      (∀ c' r' i' k, Dealer.invoked c' r' i' k e → c' = c ∧ r' = r ∧ i' = i) →
      (∀ p m wo rnd i, e.op = .receive p m wo rnd → ¬endsInvocation i m) → PStep b b' e
  | done (i : Nat) (pd : Dealer.Pending) : b.pending.get i = some pd → b'.pending = b.pending.del i → b'.invByCall = b.invByCall →
      b'.idGen = b.idGen → (∀ c r i k, ¬Dealer.invoked c r i k e) →
      (∀ p m wo rnd j, e.op = .receive p m wo rnd → endsInvocation j m → j = i) →
      (b.sessions pd.callerID ≠ none → ∃ m, e.res = .ok (.msg m pd.callerID) ∧ endsCall pd.requestID m) → PStep b b' e

theorem not_invoked {s : Nat} {m : Msg} {wo : List Str} {rnd : Nat} {res : Res Dealer.Out} (h : ∀ r o p a k bin, m ≠ .call r o p a k bin) :
    ∀ c r i k, ¬Dealer.invoked c r i k ⟨.receive s m wo rnd, res⟩ := by
  rintro c r i k ⟨o, p, a, k', bin, wo', rnd', rid, d, a', k'', bin', e⟩
  injection e with e1 e2
  injection e1 with e3 e4
  exact h _ _ _ _ _ _ e4

theorem pstep {h : List Dealer.Event} {b : Dealer.State} (hh : Dealer.Hist w h b) (hlen : h.length < 2 ^ 53) (op : Dealer.Op)
    (hnp : (Dealer.step w b op).2 ≠ .panic) : PStep b (Dealer.step w b op).1 ⟨op, (Dealer.step w b op).2⟩ := by
  have hR := Dealer.hist_rinv hh (Nat.le_of_lt hlen)
  have hg : nextID b.idGen = (b.idGen + 1, b.idGen + 1) := Dealer.nextID_small (Nat.lt_of_le_of_lt hR.gen hlen)
  have adm : ∀ {op : Dealer.Op} {res : Res Dealer.Out}, (∀ s m wo rnd, op ≠ .receive s m wo rnd) → (∀ c r i k, ¬Dealer.invoked c r i k ⟨op, res⟩) ∧
      ∀ p m wo rnd i, op = .receive p m wo rnd → endsInvocation i m → b.pending.get i = none := by
    intro op res hne
    refine ⟨?_, fun p m wo rnd i e => absurd e (hne _ _ _ _)⟩
    rintro c r i k ⟨o, p, a, k', bin, wo', rnd', rid, d, a', k'', bin', e⟩
    injection e with e1 e2
    exact hne _ _ _ _ e1
  cases op with
  | add d =>
    obtain ⟨a1, a2⟩ := adm (op := .add d) (res := (Dealer.step w b (.add d)).2) (fun _ _ _ _ => nofun)
    refine .same ?_ ?_ ?_ a1 a2 <;> simp only [Dealer.step, Dealer.addSession] <;> split <;> first | rfl | exact Nat.le_refl _
  | remove s o =>
    obtain ⟨a1, a2⟩ := adm (op := .remove s o) (res := (Dealer.step w b (.remove s o)).2) (fun _ _ _ _ => nofun)
    rcases Dealer.remove_cases b s o with ⟨-, e⟩ | ⟨-, e⟩ | ⟨-, -, f, -⟩
    · refine .same ?_ ?_ ?_ a1 a2 <;> simp only [Dealer.step, e] <;> exact Nat.le_refl _
    · simp [Dealer.step, e] at hnp
    · exact .same f.pending f.invByCall (Nat.le_of_eq f.idGen.symm) a1 a2
  | disclose on =>
    obtain ⟨a1, a2⟩ := adm (op := .disclose on) (res := (Dealer.step w b (.disclose on)).2) (fun _ _ _ _ => nofun)
    exact .same rfl rfl (Nat.le_refl _) a1 a2
  | has t =>
    obtain ⟨a1, a2⟩ := adm (op := .has t) (res := (Dealer.step w b (.has t)).2) (fun _ _ _ _ => nofun)
    exact .same rfl rfl (Nat.le_refl _) a1 a2
  | receive s m wo rnd =>
    have noend : (∀ i, ¬endsInvocation i m) → ∀ p m' wo' rnd' i, Dealer.Op.receive s m wo rnd = .receive p m' wo' rnd' → ¬endsInvocation i m' := by
      intro hn p m' wo' rnd' i e
      injection e with e1 e2
      subst e2
      exact hn i
    have noend' : (∀ i, ¬endsInvocation i m) → ∀ p m' wo' rnd' i, Dealer.Op.receive s m wo rnd = .receive p m' wo' rnd' → endsInvocation i m' →
        b.pending.get i = none := fun hn p m' wo' rnd' i e he => absurd he (noend hn p m' wo' rnd' i e)
    cases m
    case call r o p a k bin =>
      rcases Dealer.call_cases w b s r o p a k bin wo rnd with ⟨-, e⟩ | ⟨e, -⟩ | ⟨x, callee, nc, inv, -, -, -, hst, hres⟩
      · refine .same ?_ ?_ ?_ ?_ (noend' (fun _ h => h)) <;> simp only [Dealer.step, Dealer.receive, e] <;> try exact Nat.le_refl _
        rintro c r' i k' ⟨o', p', a', k'', bin', wo', rnd', rid, d, a'', k3, bin'', e'⟩
        injection e' with e1 e2
        cases e2
      · simp [Dealer.step, Dealer.receive, e] at hnp
      · have hinv : ∀ c' r' i k', Dealer.invoked c' r' i k' ⟨.receive s (.call r o p a k bin) wo rnd,
            (Dealer.step w b (.receive s (.call r o p a k bin) wo rnd)).2⟩ → c' = s ∧ r' = r ∧ i = inv := by
          rintro c r' i k' ⟨o', p', a', k'', bin', wo', rnd', rid, d, a'', k3, bin'', e'⟩
          injection e' with e1 e2
          injection e1 with e3 e4
          injection e4 with e5
          refine ⟨e3.symm, e5.symm, ?_⟩
          rcases hres with ⟨-, e⟩ | ⟨c, -, -, e⟩
          · simp [Dealer.step, Dealer.receive, e] at e2
          · obtain ⟨d', a', k', bin', e''⟩ := Dealer.invocationFor_shape b x inv s o p a k bin c
            rw [e''] at e
            simp only [Dealer.step, Dealer.receive, e, Res.map_ok, Res.ok.injEq, Dealer.Out.msg.injEq, Msg.invocation.injEq] at e2
            exact e2.1.1.symm
        rcases hst with ⟨-, hinv', hst⟩ | ⟨hibc, -, hst⟩
        · rw [hg] at hinv'
          subst hinv'
          refine .fresh s r ⟨r, s, callee, o.flag Dealer.optProgress, o.flag Dealer.optReceiveProgress⟩ rfl rfl ?_ ?_ ?_ hinv (noend (fun _ h => h)) <;> simp only [Dealer.step, Dealer.receive, hst, hg]
        · refine .again s r inv hibc ?_ ?_ ?_ hinv (noend (fun _ h => h)) <;> simp only [Dealer.step, Dealer.receive, hst]
    case yield j o a k bin =>
      have ni := not_invoked (s := s) (m := .yield j o a k bin) (wo := wo) (rnd := rnd)
        (res := (Dealer.step w b (.receive s (.yield j o a k bin) wo rnd)).2) (fun _ _ _ _ _ _ => nofun)
      rcases Dealer.yield_cases b j o a k bin with ⟨hn, e⟩ | ⟨pd, hp, hst, hres⟩
      · refine .same ?_ ?_ ?_ ni ?_ <;> simp only [Dealer.step, Dealer.receive, e] <;> try exact Nat.le_refl _
        intro p m' wo' rnd' i e he
        injection e with e1 e2
        subst e2
        obtain ⟨rfl, -⟩ := he
        exact hn
      · cases hpr : (pd.receiveProgress && o.flag Dealer.optProgress) with
        | true =>
          rw [hpr, if_pos rfl] at hst
          refine .same ?_ ?_ ?_ ni ?_ <;> simp only [Dealer.step, Dealer.receive, hst] <;> try exact Nat.le_refl _
          intro p m' wo' rnd' i e he
          injection e with e1 e2
          subst e2
          obtain ⟨rfl, he⟩ := he
          rw [Bool.and_eq_true] at hpr
          rw [show o.flag (str "progress") = true from hpr.2] at he
          cases he
        | false =>
          rw [hpr, if_neg (by simp)] at hst
          refine .done j pd hp ?_ ?_ ?_ ni ?_ ?_ <;> simp only [Dealer.step, Dealer.receive, hst]
          · intro p m' wo' rnd' i e he
            injection e with e1 e2
            subst e2
            exact he.1.symm
          · intro hne
            rcases hres with ⟨h0, -⟩ | ⟨c, -, e⟩
            · exact absurd h0 hne
            · obtain ⟨d', a', k', bin', e1, hf, -⟩ := Dealer.resultFor_shape pd.requestID (pd.receiveProgress && o.flag Dealer.optProgress) a k bin c
              rw [e1] at e
              exact ⟨.result pd.requestID d' a' k' bin', by rw [e]; rfl, rfl, by rw [hf, hpr]⟩
    case error t j d u a k =>
      have ni := not_invoked (s := s) (m := .error t j d u a k) (wo := wo) (rnd := rnd)
        (res := (Dealer.step w b (.receive s (.error t j d u a k) wo rnd)).2) (fun _ _ _ _ _ _ => nofun)
      rcases Dealer.error_cases b t j d u a k with ⟨hn, e⟩ | ⟨ht, pd, hp, e⟩
      · refine .same ?_ ?_ ?_ ni ?_ <;> simp only [Dealer.step, Dealer.receive, e] <;> try exact Nat.le_refl _
        intro p m' wo' rnd' i e he
        injection e with e1 e2
        subst e2
        obtain ⟨rfl, rfl⟩ := he
        rcases hn with hn | hn
        · exact absurd rfl hn
        · exact hn
      · refine .done j pd hp ?_ ?_ ?_ ni ?_ ?_ <;> simp only [Dealer.step, Dealer.receive, e]
        · intro p m' wo' rnd' i e he
          injection e with e1 e2
          subst e2
          exact he.2.symm
        · intro _
          exact ⟨_, rfl, rfl, rfl⟩
    case register r o p =>
      have ni := not_invoked (s := s) (m := .register r o p) (wo := wo) (rnd := rnd)
        (res := (Dealer.step w b (.receive s (.register r o p) wo rnd)).2) (fun _ _ _ _ _ _ => nofun)
      rcases Dealer.register_cases b s r o p with ⟨-, e⟩ | ⟨_, -, ⟨_, -, -, e⟩ | ⟨_, -, -, e⟩ | ⟨-, e⟩⟩ <;>
        refine .same ?_ ?_ ?_ ni (noend' (fun _ h => h)) <;> simp only [Dealer.step, Dealer.receive, e, hg] <;> omega
    case unregister r i =>
      have ni := not_invoked (s := s) (m := .unregister r i) (wo := wo) (rnd := rnd)
        (res := (Dealer.step w b (.receive s (.unregister r i) wo rnd)).2) (fun _ _ _ _ _ _ => nofun)
      rcases Dealer.unregister_cases b s r i with e | e | ⟨_, _, -, -, e, f, -⟩
      · refine .same ?_ ?_ ?_ ni (noend' (fun _ h => h)) <;> simp only [Dealer.step, Dealer.receive, e] <;> exact Nat.le_refl _
      · simp [Dealer.step, Dealer.receive, e] at hnp
      · exact .same f.pending f.invByCall (Nat.le_of_eq f.idGen.symm) ni (noend' (fun _ h => h))
    all_goals
      refine .same rfl rfl (Nat.le_refl _) (not_invoked fun _ _ _ _ _ _ => nofun) (noend' (fun _ h => h))

/-- A step of the log leaves the dealer alone, or is a call on it. -/
theorem dealer_step {l l' : Log} {a : Action} (h : Log.Reach w l) (ha : l.act w a = some l') (hd : l'.sys.dh.length ≤ 2 ^ 53) :
    (l'.sys.dealer = l.sys.dealer ∧ l'.sys.dh = l.sys.dh) ∨ ∃ e, l'.sys.dh = e :: l.sys.dh ∧ PStep l.sys.dealer l'.sys.dealer e := by
  have hh := (reach_hist (log_sys h)).2
  cases log_step ha with
  | admin bop dop j h1 h2 h3 => exact .inr ⟨_, rfl, pstep hh (by simp only [List.length_cons] at hd; exact hd) dop h3⟩
  | send p data m c h1 => exact .inl ⟨rfl, rfl⟩
  | ignore p m rest h1 h2 h3 => exact .inl ⟨rfl, rfl⟩
  | deliver p m rest c h1 => exact .inl ⟨rfl, rfl⟩
  | broker p m rest wo so op h1 h2 => exact .inl ⟨rfl, rfl⟩
  | dealer p m rest wo rnd h1 h2 h3 => exact .inr ⟨_, rfl, pstep hh (by simp only [List.length_cons] at hd; exact hd) _ h3⟩

/-- A CALL of a client that stays which was turned into an INVOCATION is under way, or has a final answer. -/
theorem calls_tracked {l : Log} (h : Log.Reach w l) (hb : l.sys.bh.length ≤ 2 ^ 53) (hd : l.sys.dh.length ≤ 2 ^ 53) (s : Nat) (hs : Stays l.sys s)
    (r i : Nat) (hi : (∃ e ∈ l.sys.dh, ∃ k, Dealer.invoked s r i k e) ∨ l.sys.dealer.invByCall (s, r) = some i) :
    (∃ pd, l.sys.dealer.pending.get i = some pd ∧ pd.callerID = s ∧ pd.requestID = r) ∨ ∃ m ∈ l.inbox s, endsCall r m := by
  induction h generalizing r i with
  | new =>
    rcases hi with ⟨e, he, -⟩ | hi
    · cases he
    · cases hi
  | act a hl ha ih =>
    rename_i l l'
    have hc := log_change ha
    have hb0 := Nat.le_trans (change_grows hc).1 hb
    have hd0 := Nat.le_trans (change_grows hc).2.1 hd
    have hs0 := Stays.back hc hs
    have ih := ih hb0 hd0 hs0
    have hin := inbox_step ha s
    have hx := log_sys hl
    have hh := (reach_hist hx).2
    have hC := Dealer.hist_cinv hh hd0
    have hout := log_out (hl.act a ha)
    have fin : ∀ {r}, (∃ m ∈ l.inbox s, endsCall r m) → ∃ m ∈ l'.inbox s, endsCall r m := fun ⟨m, h1, h2⟩ => ⟨m, hin.subset h1, h2⟩
    rcases dealer_step hl ha hd with ⟨e1, e2⟩ | ⟨e, e2, hps⟩
    · rw [e1, e2] at hi
      rw [e1]
      rcases ih r i hi with h | h
      · exact .inl h
      · exact .inr (fin h)
    · rw [e2] at hi
      cases hps with
      | same p1 p2 p3 p4 p5 =>
        have : (∃ e ∈ l.sys.dh, ∃ k, Dealer.invoked s r i k e) ∨ l.sys.dealer.invByCall (s, r) = some i := by
          rcases hi with ⟨e', he', k, hk⟩ | hi
          · rcases List.mem_cons.1 he' with rfl | he'
            · exact absurd hk (p4 _ _ _ _)
            · exact .inl ⟨e', he', k, hk⟩
          · rw [p2] at hi; exact .inr hi
        rw [p1]
        rcases ih r i this with h | h
        · exact .inl h
        · exact .inr (fin h)
      | fresh c r' pd p1 p2 p3 p4 p5 p6 p7 =>
        have hnew : (s = c ∧ r = r' ∧ i = l.sys.dealer.idGen + 1) ∨ ((∃ e ∈ l.sys.dh, ∃ k, Dealer.invoked s r i k e) ∨
            l.sys.dealer.invByCall (s, r) = some i) := by
          rcases hi with ⟨e', he', k, hk⟩ | hi
          · rcases List.mem_cons.1 he' with rfl | he'
            · exact .inl (p6 _ _ _ _ hk)
            · exact .inr (.inl ⟨e', he', k, hk⟩)
          · rw [p4] at hi
            simp only [FMap.set] at hi
            split at hi
            · rename_i e; cases e; cases hi; exact .inl ⟨rfl, rfl, rfl⟩
            · exact .inr (.inr hi)
        rw [p3]
        rcases hnew with ⟨rfl, rfl, rfl⟩ | hold
        · exact .inl ⟨pd, by simp [AMap.get_set], p1, p2⟩
        · have hle : i ≤ l.sys.dealer.idGen := by
            rcases hold with ⟨e', he', k, hk⟩ | hi
            · exact (hC.invs e' he' _ _ _ _ hk).2.1
            · exact (hC.ibc _ _ _ hi).2.1
          rcases ih r i hold with ⟨pd', h1, h2⟩ | h
          · refine .inl ⟨pd', ?_, h2⟩
            rw [AMap.get_set, if_neg (by omega)]
            exact h1
          · exact .inr (fin h)
      | again c r' i' p1 p2 p3 p4 p5 p6 =>
        have : (∃ e ∈ l.sys.dh, ∃ k, Dealer.invoked s r i k e) ∨ l.sys.dealer.invByCall (s, r) = some i := by
          rcases hi with ⟨e', he', k, hk⟩ | hi
          · rcases List.mem_cons.1 he' with rfl | he'
            · obtain ⟨rfl, rfl, rfl⟩ := p5 _ _ _ _ hk
              exact .inr p1
            · exact .inl ⟨e', he', k, hk⟩
          · rw [p3] at hi; exact .inr hi
        rw [p2]
        rcases ih r i this with h | h
        · exact .inl h
        · exact .inr (fin h)
      | done j pd p1 p2 p3 p4 p5 p6 p7 =>
        have : (∃ e ∈ l.sys.dh, ∃ k, Dealer.invoked s r i k e) ∨ l.sys.dealer.invByCall (s, r) = some i := by
          rcases hi with ⟨e', he', k, hk⟩ | hi
          · rcases List.mem_cons.1 he' with rfl | he'
            · exact absurd hk (p5 _ _ _ _)
            · exact .inl ⟨e', he', k, hk⟩
          · rw [p3] at hi; exact .inr hi
        rcases ih r i this with ⟨pd', h1, h2, h3⟩ | h
        · by_cases hij : i = j
          · subst hij
            rw [p1] at h1
            cases h1
            subst h2 h3
            right
            have hat : Dealer.attached l.sys.dh pd.callerID := by
              have hA := reach_att hx hb0
              refine hA.jd _ (hA.sj _ ?_) hs0
              obtain ⟨-, -, -, ⟨e', he', o, ⟨p, a, k, bin, wo, rnd, hop⟩, -⟩, -⟩ := hC.pen i pd p1
              exact List.ne_nil_of_mem ((reach_sent hx).dh e' he' _ _ _ _ hop)
            obtain ⟨m, hm1, hm2⟩ := p7 (by
              rw [Dealer.attached, ← (Dealer.hist_sinv hh).sess] at hat
              intro e; rw [e] at hat; cases hat)
            exact ⟨m, hout.dout e (by rw [e2]; exact .head _) _ _ (by rw [hm1]; exact .head _), hm2⟩
          · left
            refine ⟨pd', ?_, h2, h3⟩
            rw [p2, AMap.get_del, if_neg hij]
            exact h1
        · exact .inr (fin h)

theorem polite_reach {l : Log} (h : Log.Polite w l) : Log.Reach w l := by
  induction h with
  | new => exact .new
  | act a _ _ ha ih => exact ih.act a ha

theorem ends_answers {i : Nat} {m : Msg} (h : endsInvocation i m) : answersInvocation i m := by
  cases m <;> simp only [endsInvocation, answersInvocation] at h ⊢
  · exact h
  · exact h.1

/-- Among polite clients an invocation that was finally answered is not under way any more. -/
theorem polite_done {l : Log} (h : Log.Polite w l) (hb : l.sys.bh.length ≤ 2 ^ 53) (hd : l.sys.dh.length ≤ 2 ^ 53) :
    (∀ p, ∀ m ∈ l.sys.up p, ∀ i, answersInvocation i m → i ≤ l.sys.dealer.idGen) ∧
    ∀ e ∈ l.sys.dh, ∀ p m wo rnd i, e.op = .receive p m wo rnd → endsInvocation i m → i ≤ l.sys.dealer.idGen ∧ l.sys.dealer.pending.get i = none := by
  induction h with
  | new => exact ⟨by simp [Log.new, Sys.new], by simp [Log.new, Sys.new]⟩
  | act a hl0 hpol ha ih =>
    rename_i l l'
    have hl := polite_reach hl0
    have hc := log_change ha
    have hb0 := Nat.le_trans (change_grows hc).1 hb
    have hd0 := Nat.le_trans (change_grows hc).2.1 hd
    obtain ⟨i1, i2⟩ := ih hb0 hd0
    have hx := log_sys hl
    have hC := Dealer.hist_cinv (reach_hist hx).2 hd0
    have hgen : l.sys.dealer.idGen ≤ l'.sys.dealer.idGen := by
      rcases dealer_step hl ha hd with ⟨e1, -⟩ | ⟨e, -, hps⟩
      · rw [e1]; exact Nat.le_refl _
      · cases hps <;> omega
    constructor
    · have old : ∀ p, ∀ m ∈ l.sys.up p, ∀ i, answersInvocation i m → i ≤ l'.sys.dealer.idGen := fun p m hm i hi => Nat.le_trans (i1 p m hm i hi) hgen
      have less : ∀ {p m0 rest}, l.sys.up p = m0 :: rest → ∀ p', ∀ m ∈ upd l.sys.up p rest p', ∀ i, answersInvocation i m → i ≤ l'.sys.dealer.idGen := by
        intro p m0 rest hu p' m hm
        simp only [upd] at hm
        split at hm
        · rename_i e; subst e; exact old p' m (by rw [hu]; exact .tail _ hm)
        · exact old p' m hm
      cases log_step ha with
      | admin bop dop j h1 h2 h3 => exact old
      | deliver p m rest c h1 => exact old
      | ignore p m rest h1 h2 h3 => exact less h1
      | broker p m rest wo so op h1 h2 => exact less h1
      | dealer p m rest wo rnd h1 h2 h3 => exact less h1
      | send p data m c h1 =>
        subst h1
        intro p' m' hm' i hi
        simp only [upd] at hm'
        split at hm'
        · rename_i e
          subst e
          rcases List.mem_append.1 hm' with hm' | hm'
          · exact old p' m' hm' i hi
          · rcases List.mem_singleton.1 hm' with rfl
            obtain ⟨m1, hm1, hinv⟩ := hpol i hi
            cases m1 <;> simp only [isInvocation] at hinv
            subst hinv
            obtain ⟨e, he, c, r, hv⟩ := invocation_event hl hb0 (List.mem_append.2 (.inl hm1))
            exact (hC.invs e he _ _ _ _ hv).2.1
        · exact old p' m' hm' i hi
    · rcases dealer_step hl ha hd with ⟨e1, e2⟩ | ⟨e, e2, hps⟩
      · rw [e1, e2]; exact i2
      · rw [e2]
        intro e' he' p m wo rnd i hop hend
        rcases List.mem_cons.1 he' with rfl | he'
        · have hle : i ≤ l.sys.dealer.idGen := by
            cases log_step ha with
            | admin bop dop j h1 h2 h3 =>
              have := congrArg (fun l => l.head?) e2
              simp only [List.head?_cons, Option.some.injEq] at this
              rw [← this] at hop
              simp only at hop
              subst hop
              exact h2.elim
            | dealer p' m' rest wo' rnd' h1 h2 h3 =>
              have := congrArg (fun l => l.head?) e2
              simp only [List.head?_cons, Option.some.injEq] at this
              rw [← this] at hop
              simp only [Dealer.Op.receive.injEq] at hop
              obtain ⟨rfl, rfl, -, -⟩ := hop
              exact i1 p' m' (by rw [h1]; exact .head _) i (ends_answers hend)
            | send p data m c h1 => exact absurd (congrArg List.length e2) (by simp)
            | ignore p m rest h1 h2 h3 => exact absurd (congrArg List.length e2) (by simp)
            | deliver p m rest c h1 => exact absurd (congrArg List.length e2) (by simp)
            | broker p m rest wo so op h1 h2 => exact absurd (congrArg List.length e2) (by simp)
          refine ⟨Nat.le_trans hle hgen, ?_⟩
          cases hps with
          | same p1 p2 p3 p4 p5 => rw [p1]; exact p5 _ _ _ _ _ hop hend
          | fresh c r' pd p1 p2 p3 p4 p5 p6 p7 => exact absurd hend (p7 _ _ _ _ _ hop)
          | again c r' i' p1 p2 p3 p4 p5 p6 => exact absurd hend (p6 _ _ _ _ _ hop)
          | done j pd p1 p2 p3 p4 p5 p6 p7 => rw [p2, p6 _ _ _ _ _ hop hend, AMap.get_del, if_pos rfl]
        · obtain ⟨hle, hn⟩ := i2 e' he' p m wo rnd i hop hend
          refine ⟨Nat.le_trans hle hgen, ?_⟩
          cases hps with
          | same p1 p2 p3 p4 p5 => rw [p1]; exact hn
          | fresh c r' pd p1 p2 p3 p4 p5 p6 p7 => rw [p3, AMap.get_set, if_neg (by omega)]; exact hn
          | again c r' i' p1 p2 p3 p4 p5 p6 => rw [p2]; exact hn
          | done j pd p1 p2 p3 p4 p5 p6 p7 =>
            rw [p2, AMap.get_del]
            split
            · rfl
            · exact hn

/-- What has become of a CALL: under way to the router, turned down, or turned into an INVOCATION; if the callees that are chosen are
always attached, which follows from some `P`. -/
theorem call_handled_of {P : Log → Prop} (hback : ∀ {l l' : Log} {a : Action}, l.act w a = some l' → P l' → P l)
    (huse : ∀ {l : Log}, Log.Reach w l → l.sys.bh.length ≤ 2 ^ 53 → l.sys.dh.length ≤ 2 ^ 53 → P l → ∀ {order p x rnd callee nc},
      Dealer.lookup w order l.sys.dealer p = some x → (l.sys.dealer.heap x).registrants ≠ [] →
      Dealer.pick (l.sys.dealer.heap x) rnd = .ok (callee, nc) → l.sys.dealer.sessions callee ≠ none)
    {l : Log} (h : Log.Reach w l) (hb : l.sys.bh.length ≤ 2 ^ 53) (hd : l.sys.dh.length ≤ 2 ^ 53) (hP : P l) (s r : Nat) (o : GoMap) (p : Str) (a : GoSlice) (k : GoMap) (bin : Bin)
    (hm : .call r o p a k bin ∈ l.sys.sent s) :
    .call r o p a k bin ∈ l.sys.up s ∨ (∃ m ∈ l.inbox s, endsCall r m) ∨ ∃ e ∈ l.sys.dh, ∃ i c, Dealer.invoked s r i c e := by
  induction h with
  | new => cases hm
  | act ac hl ha ih =>
    rename_i l l'
    have hc := log_change ha
    have hb0 := Nat.le_trans (change_grows hc).1 hb
    have hd0 := Nat.le_trans (change_grows hc).2.1 hd
    have ih := ih hb0 hd0 (hback ha hP)
    have hin := inbox_step ha s
    have hdh := (change_hist hc).2
    have keep : .call r o p a k bin ∈ l.sys.sent s → (.call r o p a k bin ∈ l.sys.up s → .call r o p a k bin ∈ l'.sys.up s ∨
          (∃ m ∈ l'.inbox s, endsCall r m) ∨ ∃ e ∈ l'.sys.dh, ∃ i c, Dealer.invoked s r i c e) →
        .call r o p a k bin ∈ l'.sys.up s ∨ (∃ m ∈ l'.inbox s, endsCall r m) ∨ ∃ e ∈ l'.sys.dh, ∃ i c, Dealer.invoked s r i c e := by
      intro hm hup
      rcases ih hm with h | ⟨m, h1, h2⟩ | ⟨e, he, h⟩
      · exact hup h
      · exact .inr (.inl ⟨m, hin.subset h1, h2⟩)
      · exact .inr (.inr ⟨e, hdh.subset he, h⟩)
    have hout := log_out (hl.act ac ha)
    cases log_step ha with
    | admin bop dop j h1 h2 h3 => exact keep hm fun h => .inl h
    | deliver p m rest c h1 => exact keep hm fun h => .inl h
    | send p data m' c h1 =>
      simp only [upd] at hm keep ⊢
      split at hm
      · rename_i e
        subst e
        simp only [if_true] at keep ⊢
        rcases List.mem_cons.1 hm with rfl | hm
        · exact .inl (by simp)
        · exact keep hm fun h => .inl (List.mem_append.2 (.inl h))
      · rename_i e
        simp only [if_neg e] at keep ⊢
        exact keep hm fun h => .inl h
    | ignore p m' rest h1 h2 h3 =>
      refine keep hm fun h => ?_
      rcases mem_upd_cons h1 h with h | ⟨rfl, rfl⟩
      · exact .inl h
      · exact absurd trivial h3
    | broker p m' rest wo so op h1 h2 =>
      refine keep hm fun h => ?_
      rcases mem_upd_cons h1 h with h | ⟨rfl, rfl⟩
      · exact .inl h
      · cases h2
    | dealer p' m' rest wo rnd h1 h2 h3 =>
      refine keep hm fun h => ?_
      rcases mem_upd_cons h1 h with h | ⟨rfl, rfl⟩
      · exact .inl h
      · right
        have hout := hout.dout _ (.head _)
        rcases Dealer.call_cases w l.sys.dealer s r o p a k bin wo rnd with ⟨-, e⟩ | ⟨e, -⟩ | ⟨x, callee, nc, inv, hlk, hne, hpk, -, hres⟩
        · left
          refine ⟨_, hout s (.error 48 r (some []) (str "wamp.error.no_such_procedure") none none) ?_, rfl, rfl⟩
          simp only [Dealer.step, Dealer.receive, e]
          exact .head _
        · simp [Dealer.step, Dealer.receive, e] at h3
        · rcases hres with ⟨hn, -⟩ | ⟨c, -, -, e⟩
          · exact absurd hn (huse hl hb0 hd0 (hback ha hP) hlk hne hpk)
          · right
            obtain ⟨d, a', k', bin', e'⟩ := Dealer.invocationFor_shape l.sys.dealer x inv s o p a k bin c
            rw [e'] at e
            refine ⟨_, .head _, inv, callee, o, p, a, k, bin, wo, rnd, (l.sys.dealer.heap x).id, d, a', k', bin', ?_⟩
            simp only [Dealer.step, Dealer.receive, e, Res.map_ok]

theorem call_handled {l : Log} (h : Log.Reach w l) (hb : l.sys.bh.length ≤ 2 ^ 53) (hd : l.sys.dh.length ≤ 2 ^ 53)
    (hreg : ∀ c r o p, .register r o p ∈ l.sys.sent c → Stays l.sys c) (s r : Nat) (o : GoMap) (p : Str) (a : GoSlice) (k : GoMap) (bin : Bin)
    (hm : .call r o p a k bin ∈ l.sys.sent s) :
    .call r o p a k bin ∈ l.sys.up s ∨ (∃ m ∈ l.inbox s, endsCall r m) ∨ ∃ e ∈ l.sys.dh, ∃ i c, Dealer.invoked s r i c e := by
  refine call_handled_of (P := fun l => ∀ c r o p, .register r o p ∈ l.sys.sent c → Stays l.sys c) ?_ ?_ h hb hd hreg s r o p a k bin hm
  · intro l l' a ha hreg c r o p h
    have hc := log_change ha
    exact Stays.back hc (hreg c r o p (((change_grows hc).2.2 c).subset h))
  · -- the callee has registered, so it stays
    intro l hl hb hd hreg order p x rnd callee nc hlk _ hpk hn
    have hx := log_sys hl
    have hh := (reach_hist hx).2
    have hS := reach_sent hx
    have hR := Dealer.hist_rinv hh hd
    obtain ⟨e', he', q, o', od, rn, q', s', rfl⟩ := hR.cal x (Dealer.lookup_lt hR hlk) callee (Dealer.pick_mem hpk)
    have hsent := hS.dh _ he' _ _ _ _ rfl
    have hA := reach_att hx hb
    have hat := hA.jd callee (hA.sj callee (List.ne_nil_of_mem hsent)) (hreg _ _ _ _ hsent)
    rw [Dealer.attached, ← (Dealer.hist_sinv hh).sess, hn] at hat
    cases hat

theorem tame_suffix {p : Str} : ∀ {h h' : List Dealer.Event}, h <:+ h' → Dealer.Tame p h' → Dealer.Tame p h := by
  intro h h' hs
  induction h' with
  | nil => intro _; rw [List.suffix_nil.1 hs]; trivial
  | cons e h' ih =>
    intro ht
    rcases List.suffix_cons_iff.1 hs with rfl | hs
    · exact ht
    · exact ih hs ht.2

/-- The same if clients may leave, but nobody provokes the faults of shared registrations. -/
theorem call_handled_tame {l : Log} (h : Log.Reach w l) (hb : l.sys.bh.length ≤ 2 ^ 53) (hd : l.sys.dh.length ≤ 2 ^ 53)
    (ht : ∀ p, Dealer.Tame p l.sys.dh) (s r : Nat) (o : GoMap) (p : Str) (a : GoSlice) (k : GoMap) (bin : Bin)
    (hm : .call r o p a k bin ∈ l.sys.sent s) :
    .call r o p a k bin ∈ l.sys.up s ∨ (∃ m ∈ l.inbox s, endsCall r m) ∨ ∃ e ∈ l.sys.dh, ∃ i c, Dealer.invoked s r i c e := by
  refine call_handled_of (P := fun l => ∀ p, Dealer.Tame p l.sys.dh) ?_ ?_ h hb hd ht s r o p a k bin hm
  · intro l l' a ha ht p
    exact tame_suffix (change_hist (log_change ha)).2 (ht p)
  · intro l hl hb hd ht order p x rnd callee nc hlk hne hpk
    have hh := (reach_hist (log_sys hl)).2
    have hx := Dealer.lookup_lt (Dealer.hist_rinv hh hd) hlk
    have hH := Dealer.hist_hinv hh hd (ht (l.sys.dealer.heap x).procedure).held
    have h1 := (hH.gone x hx rfl).resolve_right hne
    obtain ⟨g, h2, -⟩ := hH.live x h1
    exact Dealer.tame_attached (Dealer.hist_sinv hh) hH (Dealer.hist_tinv hh hd (ht _)) h2 h1 callee (Dealer.pick_mem hpk)

/-- A message for the dealer is under way to it, or it has been given it. -/
theorem dealer_handled {l : Log} (h : Log.Reach w l) {s : Nat} {m : Msg} (hm : m ∈ l.sys.sent s) (hf : forDealer m) :
    m ∈ l.sys.up s ∨ ∃ e ∈ l.sys.dh, ∃ wo rnd, e.op = .receive s m wo rnd := by
  induction h with
  | new => cases hm
  | act ac hl ha ih =>
    rename_i l l'
    have hdh := (change_hist (log_change ha)).2
    have keep : m ∈ l.sys.sent s → (m ∈ l.sys.up s → m ∈ l'.sys.up s ∨ ∃ e ∈ l'.sys.dh, ∃ wo rnd, e.op = .receive s m wo rnd) →
        m ∈ l'.sys.up s ∨ ∃ e ∈ l'.sys.dh, ∃ wo rnd, e.op = .receive s m wo rnd := by
      intro hm hup
      rcases ih hm with h | ⟨e, he, h⟩
      · exact hup h
      · exact .inr ⟨e, hdh.subset he, h⟩
    cases log_step ha with
    | admin bop dop j h1 h2 h3 => exact keep hm fun h => .inl h
    | deliver p m rest c h1 => exact keep hm fun h => .inl h
    | send p data m' c h1 =>
      simp only [upd] at hm keep ⊢
      split at hm
      · rename_i e
        subst e
        simp only [if_true] at keep ⊢
        rcases List.mem_cons.1 hm with rfl | hm
        · exact .inl (by simp)
        · exact keep hm fun h => .inl (List.mem_append.2 (.inl h))
      · rename_i e
        simp only [if_neg e] at keep ⊢
        exact keep hm fun h => .inl h
    | ignore p m' rest h1 h2 h3 =>
      refine keep hm fun h => ?_
      rcases mem_upd_cons h1 h with h | ⟨rfl, rfl⟩
      · exact .inl h
      · exact absurd hf h3
    | broker p m' rest wo so op h1 h2 =>
      refine keep hm fun h => ?_
      rcases mem_upd_cons h1 h with h | ⟨rfl, rfl⟩
      · exact .inl h
      · cases m <;> simp only [callB, reduceCtorEq] at h2 <;> exact hf.elim
    | dealer p' m' rest wo rnd h1 h2 h3 =>
      refine keep hm fun h => ?_
      rcases mem_upd_cons h1 h with h | ⟨rfl, rfl⟩
      · exact .inl h
      · exact .inr ⟨_, .head _, wo, rnd, rfl⟩

/-- What C112 needs, once a CALL is known to be turned down or turned into an INVOCATION. -/
theorem calls_finish {l : Log} (h : Log.Polite w l) (hb : l.sys.bh.length ≤ 2 ^ 53) (hd : l.sys.dh.length ≤ 2 ^ 53)
    (hidle : l.Idle) (hserved : l.Served) (s : Nat) (hs : Stays l.sys s) (r : Nat) (m : Msg)
    (hh : m ∈ l.sys.up s ∨ (∃ m ∈ l.inbox s, endsCall r m) ∨ ∃ e ∈ l.sys.dh, ∃ i c, Dealer.invoked s r i c e) :
    ∃ m ∈ l.got s, endsCall r m := by
  have hl := polite_reach h
  have hgot : ∀ c, l.inbox c = l.got c := fun c => by rw [Log.inbox, (hidle c).2, List.append_nil]
  rw [← hgot]
  rcases hh with h1 | h1 | ⟨e, he, i, c, hv⟩
  · rw [(hidle s).1] at h1; cases h1
  · exact h1
  · rcases calls_tracked hl hb hd s hs r i (.inl ⟨e, he, c, hv⟩) with ⟨pd, hpd, -⟩ | h1
    · exfalso
      obtain ⟨_, _, _, _, _, _, _, _, _, _, _, _, rfl⟩ := hv
      have hin := (log_out hl).dout _ he c _ (.head _)
      rw [hgot] at hin
      obtain ⟨q, m, hq, hend⟩ := hserved c i ⟨_, hin, rfl⟩
      have hev : ∃ e ∈ l.sys.dh, ∃ wo rnd, e.op = .receive q m wo rnd := by
        refine (dealer_handled hl hq ?_).resolve_left fun h => ?_
        · cases m <;> first | trivial | exact hend.elim
        · rw [(hidle q).1] at h; cases h
      obtain ⟨e', he', wo, rnd, hop⟩ := hev
      rw [((polite_done h hb hd).2 e' he' q m wo rnd i hop hend).2] at hpd
      cases hpd
    · exact h1

/-- **C112** what holds: when nothing is under way and every INVOCATION that a client got has been answered finally, every CALL of a client that
stays has a final answer, which the client has got.  (If clients that register stay, and clients do not answer INVOCATIONs before they get
them.) -/
theorem C112_calls_finish_partial {l : Log} (h : Log.Polite w l) (hb : l.sys.bh.length ≤ 2 ^ 53) (hd : l.sys.dh.length ≤ 2 ^ 53)
    (hidle : l.Idle) (hserved : l.Served) (hreg : ∀ c r o p, .register r o p ∈ l.sys.sent c → Stays l.sys c) (s : Nat) (hs : Stays l.sys s)
    (r : Nat) (o : GoMap) (p : Str) (a : GoSlice) (k : GoMap) (bin : Bin) (hm : .call r o p a k bin ∈ l.sys.sent s) :
    ∃ m ∈ l.got s, endsCall r m :=
  calls_finish h hb hd hidle hserved s hs r _ (call_handled (polite_reach h) hb hd hreg s r o p a k bin hm)

/-- **C112** what holds when clients leave: the same, if nobody registers a procedure twice or unregisters one that others are registered for
too. -/
theorem C112_clients_leave_partial {l : Log} (h : Log.Polite w l) (hb : l.sys.bh.length ≤ 2 ^ 53) (hd : l.sys.dh.length ≤ 2 ^ 53)
    (hidle : l.Idle) (hserved : l.Served) (ht : ∀ p, Dealer.Tame p l.sys.dh) (s : Nat) (hs : Stays l.sys s)
    (r : Nat) (o : GoMap) (p : Str) (a : GoSlice) (k : GoMap) (bin : Bin) (hm : .call r o p a k bin ∈ l.sys.sent s) :
    ∃ m ∈ l.got s, endsCall r m :=
  calls_finish h hb hd hidle hserved s hs r _ (call_handled_tame (polite_reach h) hb hd ht s r o p a k bin hm)

/-- **C112** in particular if no client asks for a shared registration. -/
theorem C112_exclusive_partial {l : Log} (h : Log.Polite w l) (hb : l.sys.bh.length ≤ 2 ^ 53) (hd : l.sys.dh.length ≤ 2 ^ 53)
    (hidle : l.Idle) (hserved : l.Served)
    (hx : ∀ c r o p, .register r o p ∈ l.sys.sent c → o.text (str "invoke") = [] ∨ o.text (str "invoke") = str "single")
    (s : Nat) (hs : Stays l.sys s) (r : Nat) (o : GoMap) (p : Str) (a : GoSlice) (k : GoMap) (bin : Bin)
    (hm : .call r o p a k bin ∈ l.sys.sent s) : ∃ m ∈ l.got s, endsCall r m := by
  have hl := log_sys (polite_reach h)
  refine C112_clients_leave_partial h hb hd hidle hserved (fun q => (Dealer.hist_single (reach_hist hl).2 hd ?_).1) s hs r o p a k bin hm
  intro e he s' q' o' order rnd heq
  exact hx s' q' o' q ((reach_sent hl).dh e he _ _ _ _ heq)

/-! ### Examples for C112 -/

theorem caused_sent {sent : Nat → List Msg} {s p : Nat} {m out : Msg} (h : Caused w sent s p m out) (hm : m ∈ sent p) : sent s ≠ [] := by
  have own : p = s → sent s ≠ [] := fun e => by subst e; exact List.ne_nil_of_mem hm
  have call : ∀ {r}, hasCalled sent s r → sent s ≠ [] := fun ⟨_, _, _, _, _, h⟩ => List.ne_nil_of_mem h
  unfold Caused at h
  split at h
  case h_1 =>
    obtain ⟨_, _, _, _, _, _, _, h, -⟩ := h
    exact List.ne_nil_of_mem h
  case h_7 =>
    obtain ⟨_, _, _, _, _, _, _, _, _, _, _, h, -⟩ := h
    exact List.ne_nil_of_mem h
  case h_8 => exact call h.2
  case h_10 => exact h.elim (fun h => own h.1) fun h => call h.2
  case h_11 => exact h.elim
  all_goals exact own h.1

/-- Who gets something has sent something. -/
theorem inbox_sent {l : Log} (h : Log.Reach w l) (hb : l.sys.bh.length ≤ 2 ^ 53) (hd : l.sys.dh.length ≤ 2 ^ 53) (s : Nat) (hi : l.inbox s ≠ []) :
    l.sys.sent s ≠ [] := by
  induction h with
  | new => exact absurd rfl hi
  | act a hl ha ih =>
    rename_i l l'
    have hc := log_change ha
    have ih := ih (Nat.le_trans (change_grows hc).1 hb) (Nat.le_trans (change_grows hc).2.1 hd)
    have old : l.inbox s ≠ [] → l'.sys.sent s ≠ [] := by
      intro h e
      have := ((change_grows hc).2.2 s)
      rw [e, List.suffix_nil] at this
      exact ih h this
    have hS := reach_sent (log_sys hl)
    cases log_step ha with
    | admin bop dop j h1 h2 h3 => exact old hi
    | send p data m c h1 => exact old hi
    | ignore p m rest h1 h2 h3 => exact old hi
    | deliver p m rest c h1 => rw [inbox_deliver c h1] at hi; exact old hi
    | broker p m rest wo so op h1 h2 =>
      by_cases h0 : l.inbox s = []
      · have hm : m ∈ l.sys.sent p := hS.up p m (by rw [h1]; exact .head _)
        obtain ⟨ev, other, e, he, ho⟩ := broker_caused (log_sys hl) (by simp only [List.length_cons] at hb; exact hb) s p m wo so op h2
        simp only [Log.inbox] at hi h0
        rw [← List.append_assoc, h0, e] at hi
        rcases he with rfl | ⟨x, -, -, hx⟩
        · rcases ho with rfl | ⟨x, -, -, hx⟩
          · exact absurd rfl hi
          · exact caused_sent hx hm
        · exact caused_sent hx hm
      · exact old h0
    | dealer p m rest wo rnd h1 h2 h3 =>
      by_cases h0 : l.inbox s = []
      · have hm : m ∈ l.sys.sent p := hS.up p m (by rw [h1]; exact .head _)
        simp only [Log.inbox] at hi h0
        rw [← List.append_assoc, h0] at hi
        rcases dealer_caused (log_sys hl) (by simp only [List.length_cons] at hd; exact hd) s p m wo rnd with e | ⟨x, -, -, hx⟩
        · rw [e] at hi; exact absurd rfl hi
        · exact caused_sent hx hm
      · exact old h0

theorem got_joined {l : Log} (h : Log.Reach w l) (hb : l.sys.bh.length ≤ 2 ^ 53) (hd : l.sys.dh.length ≤ 2 ^ 53) (s : Nat) (hs : s ∉ l.sys.joined) :
    l.sys.sent s = [] ∧ l.inbox s = [] := by
  have h1 : l.sys.sent s = [] := Classical.byContradiction fun hn => hs ((reach_att (log_sys h) hb).sj s hn)
  exact ⟨h1, Classical.byContradiction fun hn => inbox_sent h hb hd s hn h1⟩

theorem idle_of {l : Log} (h : Log.Reach w l) (hb : l.sys.bh.length ≤ 2 ^ 53) (hd : l.sys.dh.length ≤ 2 ^ 53)
    (hi : l.sys.joined.all (fun s => (l.sys.up s).isEmpty && (l.sys.down s).isEmpty) = true) : l.Idle := by
  intro s
  by_cases hs : s ∈ l.sys.joined
  · have := List.all_eq_true.1 hi s hs
    simpa using this
  · obtain ⟨h1, h2⟩ := got_joined h hb hd s hs
    refine ⟨?_, (List.append_eq_nil_iff.1 h2).2⟩
    have := (reach_sent (log_sys h)).up s
    rw [h1] at this
    exact List.eq_nil_iff_forall_not_mem.2 fun m hm => by cases this m hm

/-- `endsInvocation`, computed. -/
def endsInvocationB (i : Nat) : Msg → Bool
  | .yield j o _ _ _ => j == i && !o.flag (str "progress")
  | .error t j _ _ _ _ => t == 68 && j == i
  | _ => false

theorem endsInvocation_of {i : Nat} {m : Msg} (h : endsInvocationB i m = true) : endsInvocation i m := by
  cases m <;> simp [endsInvocationB] at h <;> exact h

/-- The ID of an INVOCATION. -/
def invocationID : Msg → Option Nat
  | .invocation i _ _ _ _ _ => some i
  | _ => none

theorem invocationID_of {i : Nat} {m : Msg} (h : isInvocation i m) : invocationID m = some i := by
  cases m <;> simp only [isInvocation] at h
  subst h; rfl

theorem isInvocation_of {i : Nat} {m : Msg} (h : invocationID m = some i) : isInvocation i m := by
  cases m <;> simp only [invocationID, reduceCtorEq, Option.some.injEq] at h
  exact h

theorem served_of {l : Log} (h : Log.Reach w l) (hb : l.sys.bh.length ≤ 2 ^ 53) (hd : l.sys.dh.length ≤ 2 ^ 53)
    (hi : l.sys.joined.all (fun s => ((l.got s).filterMap invocationID).all fun i => l.sys.joined.any fun p =>
      (l.sys.sent p).any (endsInvocationB i)) = true) : l.Served := by
  rintro c i ⟨m, hm, hi'⟩
  by_cases hs : c ∈ l.sys.joined
  · have h1 := List.all_eq_true.1 (List.all_eq_true.1 hi c hs) i (List.mem_filterMap.2 ⟨m, hm, invocationID_of hi'⟩)
    obtain ⟨p, -, h2⟩ := List.any_eq_true.1 h1
    obtain ⟨m', h3, h4⟩ := List.any_eq_true.1 h2
    exact ⟨p, m', h3, endsInvocation_of h4⟩
  · have := (List.append_eq_nil_iff.1 (got_joined h hb hd c hs).2).1
    rw [this] at hm; cases hm

/-- The invocation a message answers. -/
def answerTo : Msg → Option Nat
  | .yield j _ _ _ _ => some j
  | .error t j _ _ _ _ => if t = 68 then some j else none
  | _ => none

/-- `Log.polite`, computed. -/
def politeB (l : Log) : Action → Bool
  | .send s _ m =>
    match answerTo m with
    | some i => (l.got s).any fun m' => invocationID m' == some i
    | none => true
  | _ => true

theorem polite_of {l : Log} {a : Action} (h : politeB l a = true) : l.polite a := by
  cases a <;> try trivial
  rename_i s data m
  intro i hi
  have : answerTo m = some i := by
    cases m <;> simp only [answersInvocation] at hi
    · obtain ⟨rfl, rfl⟩ := hi; rfl
    · subst hi; rfl
  simp only [politeB, this] at h
  obtain ⟨m', h1, h2⟩ := List.any_eq_true.1 h
  exact ⟨m', h1, isInvocation_of (by simpa using h2)⟩

/-- Actions one after the other, if they are polite. -/
def Log.runPolite (w : Str → Str → Bool) : Log → List Action → Option Log
  | l, [] => some l
  | l, a :: as => if politeB l a then (l.act w a).bind fun l' => l'.runPolite w as else none

theorem polite_run {l l' : Log} (h : Log.Polite w l) : ∀ as, l.runPolite w as = some l' → Log.Polite w l' := by
  intro as
  induction as generalizing l with
  | nil => intro h1; cases h1; exact h
  | cons a as ih =>
    intro h1
    simp only [Log.runPolite] at h1
    split at h1
    · rename_i hp
      obtain ⟨z, h2, h3⟩ := Option.bind_eq_some_iff.1 h1
      exact ih (h.act a (polite_of hp) h2) h3
    · cases h1

/-- The log after these actions. -/
def behaved (as : List Action) : Log := (Log.new.runPolite Dealer.noWild as).getD Log.new

theorem polite_behaved (as : List Action) : Log.Polite Dealer.noWild (behaved as) := by
  unfold behaved
  cases h : Log.new.runPolite Dealer.noWild as with
  | none => exact .new
  | some y => exact polite_run .new as h

/-- Client 2 registers "p" and "q".  Client 1 calls "p", which is answered with a RESULT, client 3 calls "q", which is answered with an ERROR,
and client 3 calls "r", which nobody has registered. -/
def office : List Action :=
  three ++ does 2 (.register 1 none (str "p")) ++ does 2 (.register 2 none (str "q")) ++ [.deliver 2, .deliver 2] ++
  does 1 (.call 7 none (str "p") none none Bin.none) ++ does 3 (.call 7 none (str "q") none none Bin.none) ++
  does 3 (.call 8 none (str "r") none none Bin.none) ++ [.deliver 2, .deliver 2] ++
  does 2 (.error 68 4 none (str "e") none none) ++ does 2 (.yield 3 none none none Bin.none) ++ [.deliver 1, .deliver 3, .deliver 3]

example : (behaved office).sys.bh.length ≤ 2 ^ 53 ∧ (behaved office).sys.dh.length ≤ 2 ^ 53 ∧ (behaved office).Idle ∧ (behaved office).Served ∧
    (∀ c, Stays (behaved office).sys c) ∧ (((behaved office).sys.sent 3).map glance) = [(48, 8), (48, 7)] ∧
    ((behaved office).got 1).map glance = [(50, 7)] ∧ ((behaved office).got 3).map glance = [(8, 8), (8, 7)] := by
  have hb : (behaved office).sys.bh.length ≤ 2 ^ 53 := by decide +kernel
  have hd : (behaved office).sys.dh.length ≤ 2 ^ 53 := by decide +kernel
  have hl := polite_reach (polite_behaved office)
  refine ⟨hb, hd, idle_of hl hb hd (by decide +kernel), served_of hl hb hd (by decide +kernel), fun c => ?_, by decide +kernel, by decide +kernel, by decide +kernel⟩
  have h : (behaved office).sys.bh.all (fun e => match e.op with | .remove .. => false | _ => true) = true ∧
      (behaved office).sys.dh.all (fun e => match e.op with | .remove .. => false | _ => true) = true := by decide +kernel
  constructor
  · intro e he o heq
    have := List.all_eq_true.1 h.1 e he
    rw [heq] at this
    cases this
  · intro e he o heq
    have := List.all_eq_true.1 h.2 e he
    rw [heq] at this
    cases this

/-- No REGISTER asks for a shared registration. -/
def exclusiveB : Msg → Bool
  | .register _ o _ => o.text (str "invoke") = [] || o.text (str "invoke") = str "single"
  | _ => true

theorem exclusive_of {l : Log} (h : Log.Reach w l) (hb : l.sys.bh.length ≤ 2 ^ 53)
    (hx : l.sys.joined.all (fun c => (l.sys.sent c).all exclusiveB) = true) (c r : Nat) (o : GoMap) (p : Str) (hm : .register r o p ∈ l.sys.sent c) :
    o.text (str "invoke") = [] ∨ o.text (str "invoke") = str "single" := by
  have := List.all_eq_true.1 (List.all_eq_true.1 hx c ((reach_att (log_sys h) hb).sj c (List.ne_nil_of_mem hm))) _ hm
  simpa [exclusiveB] using this

/-- The office goes on: client 2, whom the procedures belong to, leaves; client 1 calls "p" in vain; client 3 registers "p"; client 1 calls "p"
again, and client 3 answers. -/
def moved : List Action :=
  office ++ [.leave 2 [] []] ++ does 1 (.call 8 none (str "p") none none Bin.none) ++ [.deliver 1] ++
  does 3 (.register 9 none (str "p")) ++ [.deliver 3] ++ does 1 (.call 9 none (str "p") none none Bin.none) ++ [.deliver 3] ++
  does 3 (.yield 6 none none none Bin.none) ++ [.deliver 1]

example : Log.Polite Dealer.noWild (behaved moved) ∧ (behaved moved).sys.bh.length ≤ 2 ^ 53 ∧ (behaved moved).sys.dh.length ≤ 2 ^ 53 ∧
    (behaved moved).Idle ∧ (behaved moved).Served ∧
    (∀ c r o p, .register r o p ∈ (behaved moved).sys.sent c → o.text (str "invoke") = [] ∨ o.text (str "invoke") = str "single") ∧
    Stays (behaved moved).sys 1 ∧ ¬Stays (behaved moved).sys 2 ∧ ((behaved moved).sys.sent 2).map glance ≠ [] ∧
    ((behaved moved).sys.sent 1).map glance = [(48, 9), (48, 8), (48, 7)] ∧ ((behaved moved).got 1).map glance = [(50, 7), (8, 8), (50, 9)] := by
  have hb : (behaved moved).sys.bh.length ≤ 2 ^ 53 := by decide +kernel
  have hd : (behaved moved).sys.dh.length ≤ 2 ^ 53 := by decide +kernel
  have hl := polite_reach (polite_behaved moved)
  refine ⟨polite_behaved _, hb, hd, idle_of hl hb hd (by decide +kernel), served_of hl hb hd (by decide +kernel), exclusive_of hl hb (by decide +kernel),
    stays_of (by decide +kernel), fun h => ?_, by decide +kernel, by decide +kernel, by decide +kernel⟩
  have h2 : (behaved moved).sys.dh.any (fun e => match e.op with | .remove 2 [] => true | _ => false) = true := by decide +kernel
  obtain ⟨e, he, h3⟩ := List.any_eq_true.1 h2
  refine h.2 e he [] ?_
  split at h3
  · assumption
  · cases h3

/-- REGISTER "p", which others may register too. -/
def registerFirst (r : Nat) : Msg := .register r (some [(str "invoke", .str (str "first"))]) (str "p")

/-- Client 2 registers "p" twice; client 3 registers it too; client 2 leaves; client 1 calls "p". -/
def hanging : List Action :=
  three ++ does 2 (registerFirst 1) ++ does 2 (registerFirst 2) ++ does 3 (registerFirst 1) ++ [.deliver 2, .deliver 2, .deliver 3] ++
  [.leave 2 [] []] ++ does 1 (.call 7 none (str "p") none none Bin.none)

/-- **C112** The full statement fails: a CALL of a client that stays is never answered, though nothing is under way and nobody has left an
INVOCATION unanswered: the dealer chose a callee that had left, while another is registered. -/
theorem C112_hangs : ∃ l, Log.Polite Dealer.noWild l ∧ l.Idle ∧ l.Served ∧ Stays l.sys 1 ∧ Stays l.sys 3 ∧
    l.sys.sent 1 = [.call 7 none (str "p") none none Bin.none] ∧ l.got 1 = [] ∧ Dealer.members l.sys.dh (str "p") = [3] := by
  have hb : (behaved hanging).sys.bh.length ≤ 2 ^ 53 := by decide +kernel
  have hd : (behaved hanging).sys.dh.length ≤ 2 ^ 53 := by decide +kernel
  have hl := polite_reach (polite_behaved hanging)
  exact ⟨behaved hanging, polite_behaved _, idle_of hl hb hd (by decide +kernel), served_of hl hb hd (by decide +kernel), stays_of (by decide +kernel),
    stays_of (by decide +kernel), rfl, rfl, by decide +kernel⟩

end Wamp.System
