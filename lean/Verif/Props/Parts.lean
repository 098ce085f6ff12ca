import Verif.Spec.Parts
import Verif.Props.Results
/-!
# C129: a callee gets a call made in parts
-/
namespace Wamp.System
open Wamp.Session

variable {w : Str → Str → Bool}

theorem flags_handed (caller : Option SessionDetails) (sid : Nat) (p : Str) (x y : Bool) (n : Nat) :
    (GoMap.flag (some (Dealer.invocationDetails caller sid p x y)) (str "progress") = x) ∧
    (GoMap.flag (some (Dealer.invocationDetails caller sid p x y)) (str "receive_progress") = y) ∧
    ((withSerializer (some (Dealer.invocationDetails caller sid p x y)) n).flag (str "progress") = x) ∧
    ((withSerializer (some (Dealer.invocationDetails caller sid p x y)) n).flag (str "receive_progress") = y) := by
  cases caller <;> cases x <;> cases y <;> exact ⟨rfl, rfl, rfl, rfl⟩

theorem part_dealer {r : Nat} {m : Msg} (h : isPart r m = true) : forDealer m := by cases m <;> first | trivial | cases h

/-- An INVOCATION with an ID that belongs to CALL `r` of `s`, or to nobody, is sent for CALL `r` of `s` only. -/
theorem not_for_others {h : List Dealer.Event} {b : Dealer.State} (hh : Dealer.Hist w h b) (hlen : h.length < 2 ^ 53) {s r i p : Nat} {m : Msg} {wo : List Str}
    {rnd : Nat} (hnp : (Dealer.step w b (.receive p m wo rnd)).2 ≠ .panic) (hne : ¬(p = s ∧ isPart r m = true))
    (hi : b.invByCall (s, r) = some i ∨ i = 0 ∨ (Dealer.step w b (.receive p m wo rnd)).1.idGen < i) (s' : Nat) :
    (messagesFor s' (dealerOut (Dealer.step w b (.receive p m wo rnd)).2)).filter (invokes i) = [] := by
  have hC := Dealer.hist_cinv hh (Nat.le_of_lt hlen)
  refine List.filter_eq_nil_iff.2 fun out hout hinv => ?_
  cases out <;> simp only [invokes, Bool.false_eq_true] at hinv
  rename_i j g d a k bin
  have hj : j = i := by simpa using hinv
  subst hj
  have hres := dealer_msg (e := ⟨.receive p m wo rnd, (Dealer.step w b (.receive p m wo rnd)).2⟩) (mem_messagesFor.1 hout)
  obtain ⟨_, _, _, _, e1, -, e2⟩ := dealer_answer hres
  cases e1
  obtain ⟨r', o, u, a', k', bin', rfl⟩ := e2 _ _ _ _ _ _ rfl
  have hin : Dealer.invoked p r' j s' ⟨.receive p (.call r' o u a' k' bin') wo rnd, (Dealer.step w b (.receive p (.call r' o u a' k' bin') wo rnd)).2⟩ :=
    ⟨_, _, _, _, _, _, _, _, _, _, _, _, by rw [show (Dealer.step w b (.receive p (.call r' o u a' k' bin') wo rnd)).2 = _ from hres]⟩
  cases pstep hh hlen _ hnp with
  | same h1 h2 h3 h4 h5 => exact h4 _ _ _ _ hin
  | done j' pd h1 h2 h3 h4 h5 => exact h5 _ _ _ _ hin
  | fresh c r0 pd h1 h2 h3 h4 h5 h6 h7 =>
    obtain ⟨-, -, e⟩ := h6 _ _ _ _ hin
    rcases hi with hi | hi | hi
    · have := (hC.ibc _ _ _ hi).2.1; omega
    · omega
    · omega
  | again c r0 i' h1 h2 h3 h4 h5 h6 =>
    obtain ⟨rfl, rfl, rfl⟩ := h5 _ _ _ _ hin
    have := hC.ibc _ _ _ h1
    rcases hi with hi | hi | hi
    · have := hC.ibi _ _ _ h1 hi
      simp only [Prod.mk.injEq] at this
      exact hne ⟨this.1, by simp [isPart, this.2]⟩
    · omega
    · omega

theorem gen_grows {h : List Dealer.Event} {b : Dealer.State} (hh : Dealer.Hist w h b) (hlen : h.length < 2 ^ 53) {op : Dealer.Op}
    (hnp : (Dealer.step w b op).2 ≠ .panic) : b.idGen ≤ (Dealer.step w b op).1.idGen := by
  cases pstep hh hlen _ hnp with
  | same h1 h2 h3 => exact h3
  | done j' pd h1 h2 h3 h4 => exact Nat.le_of_eq h4.symm
  | fresh c r0 pd h1 h2 h3 h4 h5 => omega
  | again c r0 i' h1 h2 h3 h4 => exact Nat.le_of_eq h4.symm

/-- Only CALL `r` of `s` changes the invocation that goes with it. -/
theorem link_kept {b : Dealer.State} {s r p : Nat} {m : Msg} {wo : List Str} {rnd : Nat} (hm : forDealer m)
    (hnp : (Dealer.step w b (.receive p m wo rnd)).2 ≠ .panic) (hne : ¬(p = s ∧ isPart r m = true)) :
    (Dealer.step w b (.receive p m wo rnd)).1.invByCall (s, r) = b.invByCall (s, r) := by
  have := dstep b p m wo rnd hm hnp
  generalize (Dealer.step w b (.receive p m wo rnd)).1 = b' at this ⊢
  generalize dealerOut (Dealer.step w b (.receive p m wo rnd)).2 = out at this
  cases this
  case called r' o u a k bin i pd h1 h2 h3 h4 h5 =>
    rw [h4, FMap.set_apply, if_neg]
    intro e
    simp only [Prod.mk.injEq] at e
    exact hne ⟨e.1.symm, by simp [isPart, e.2]⟩
  all_goals simp_all

/-- A part of a call goes to the owner of the procedure. -/
theorem part_step {h : List Dealer.Event} {b : Dealer.State} (hh : Dealer.Hist w h b) (hlen : h.length < 2 ^ 53) {u : Str} (hsg : Dealer.Single u h)
    {c g : Nat} (ho : Dealer.owner h u = some (c, g)) (hc : Dealer.attached h c) {s r : Nat} {o : GoMap} {a : GoSlice} {k : GoMap} {bin : Bin} {wo : List Str}
    {rnd : Nat} (hnp : (Dealer.step w b (.receive s (.call r o u a k bin) wo rnd)).2 ≠ .panic) (hp : o.flag (str "progress") = true) :
    ∃ i out, (Dealer.step w b (.receive s (.call r o u a k bin) wo rnd)).2 = .ok (.msg out c) ∧ invokes i out = true ∧ HandedOn i g (.call r o u a k bin) out ∧
      (Dealer.step w b (.receive s (.call r o u a k bin) wo rnd)).1.invByCall (s, r) = some i ∧
      (b.invByCall (s, r) = some i ∨ (b.invByCall (s, r) = none ∧ b.idGen < i)) := by
  obtain ⟨j, d, a', k', bin', hres⟩ := Dealer.C52_call hh hlen u hsg c r o a k bin wo rnd (fun _ => hc) c g ho
  obtain ⟨x, nc, cd, hl, hne, hpk, hid, hcd, -⟩ := Dealer.invocation_of hres
  simp only [Dealer.step, Dealer.receive] at hnp ⊢
  rcases Dealer.call_cases w b s r o u a k bin wo rnd with ⟨e, -⟩ | ⟨e, -⟩ | ⟨x', c', nc', i, hl', -, hpk', hst, hout⟩
  · exfalso
    rcases e with e | ⟨_, e, e'⟩
    · rw [hl] at e; cases e
    · rw [hl] at e; cases e; exact hne e'
  · rw [e] at hnp; exact absurd rfl hnp
  · rw [hl] at hl'
    cases hl'
    rw [hpk] at hpk'
    cases hpk'
    rcases hout with ⟨e, -⟩ | ⟨cd', hcd', -, e⟩
    · rw [hcd] at e; cases e
    have hcont : HandedOn i g (.call r o u a k bin) (Dealer.invocationFor b x i s o u a k bin cd') ∧ invokes i (Dealer.invocationFor b x i s o u a k bin cd') = true := by
      obtain ⟨f1, f2, f3, f4⟩ := flags_handed (if b.details then b.sessions s else none) s u (o.flag Dealer.optProgress) (o.flag Dealer.optReceiveProgress)
        bin.serializer
      simp only [Dealer.invocationFor, HandedOn]
      cases hb : (bin.binary && cd'.static) <;> simp only [Bool.false_eq_true, if_false, if_true, newInvocation, newInvocationBinary, hid]
      · exact ⟨⟨_, _, _, _, rfl, .inl ⟨rfl, rfl, rfl⟩, f1, f2⟩, by simp [invokes]⟩
      · rw [Bool.and_eq_true] at hb
        refine ⟨⟨_, _, _, _, rfl, .inr ⟨hb.1, rfl, rfl, ?_⟩, f3, f4⟩, by simp [invokes]⟩
        cases bin; simp_all
    refine ⟨i, _, by rw [e]; rfl, hcont.2, hcont.1, ?_⟩
    rcases hst with ⟨e1, e2, e3⟩ | ⟨e1, e2, e3⟩
    · rw [e3]
      refine ⟨by simp, ?_⟩
      have hR := Dealer.hist_rinv hh (Nat.le_of_lt hlen)
      rw [Dealer.nextID_small (Nat.lt_of_le_of_lt hR.gen hlen)] at e2
      rcases e1 with e1 | e1
      · exact .inr ⟨e1, by omega⟩
      · rw [show o.flag Dealer.optProgress = true from hp] at e1; cases e1
    · rw [e3]
      exact ⟨e1, .inl e1⟩

theorem fromBroker_invokes {new : List Msg} (h : ∀ m ∈ new, fromBroker m) (i : Nat) : new.filter (invokes i) = [] := by
  refine List.filter_eq_nil_iff.2 fun m hm => ?_
  have := h m hm
  cases m <;> simp_all [fromBroker, invokes]

theorem partsOf_append {s r : Nat} {l l' : List (Nat × Msg)} : partsOf s r (l ++ l') = partsOf s r l ++ partsOf s r l' := by
  simp [partsOf]

/-- What `c` is given of call `r` of `s` during these actions. -/
theorem run_parts {s r c g : Nat} {u : Str} (as : List Action) {l l' : Log} (h : Log.Reach w l) (hrun : l.run w as = some l')
    (hb : l'.sys.bh.length ≤ 2 ^ 53) (hd : l'.sys.dh.length ≤ 2 ^ 53) (hsg : Dealer.Single u l'.sys.dh)
    {e : Dealer.Event} (he : e ∈ l.sys.dh) (hreg : Dealer.registeredAs c u g e)
    (hu : ∀ e ∈ l'.sys.dh, ∀ q wo rnd, e.op ≠ .receive c (.unregister q g) wo rnd) (hc : Stays l'.sys c) (hcs : l.sys.sent c ≠ [])
    (hparts : ∀ q ∈ l.taken w as, ∀ o p a k bin, q = (s, .call r o p a k bin) → p = u ∧ o.flag (str "progress") = true) :
    (∀ i, l.sys.dealer.invByCall (s, r) = some i →
      ∃ new, l'.inbox c = l.inbox c ++ new ∧ AllHandedOn i g (partsOf s r (l.taken w as)) (new.filter (invokes i)) ∧
        ∀ s' ≠ c, ∃ new, l'.inbox s' = l.inbox s' ++ new ∧ new.filter (invokes i) = []) ∧
    (l.sys.dealer.invByCall (s, r) = none →
      ∃ i, (i = 0 ∨ l.sys.dealer.idGen < i) ∧
      ∃ new, l'.inbox c = l.inbox c ++ new ∧ AllHandedOn i g (partsOf s r (l.taken w as)) (new.filter (invokes i)) ∧
        ∀ s' ≠ c, ∃ new, l'.inbox s' = l.inbox s' ++ new ∧ new.filter (invokes i) = []) := by
  induction as generalizing l with
  | nil =>
    cases hrun
    have : ∀ i, ∃ new, l'.inbox c = l'.inbox c ++ new ∧ AllHandedOn i g (partsOf s r (l'.taken w [])) (new.filter (invokes i)) ∧
        ∀ s' ≠ c, ∃ new, l'.inbox s' = l'.inbox s' ++ new ∧ new.filter (invokes i) = [] := fun i =>
      ⟨[], (List.append_nil _).symm, .nil, fun s' _ => ⟨[], (List.append_nil _).symm, rfl⟩⟩
    exact ⟨fun i _ => this i, fun _ => ⟨0, .inl rfl, this 0⟩⟩
  | cons a as ih =>
    obtain ⟨z, ha, hrun⟩ := Option.bind_eq_some_iff.1 hrun
    have hz := h.act a ha
    have hch := log_change ha
    obtain ⟨g1, g2, g3, -⟩ := run_grows as hrun
    have hx := log_sys h
    have hh := (reach_hist hx).2
    have hbz := Nat.le_trans g1.length_le hb
    have hdz := Nat.le_trans g2.length_le hd
    have hbl := Nat.le_trans (change_grows hch).1 hbz
    have hsub := (change_hist hch).2
    have htk : l.taken w (a :: as) = l.taken w [a] ++ z.taken w as := by
      simp only [Log.taken, ha, List.append_nil]
    rw [htk] at hparts
    obtain ⟨ihS, ihN⟩ := ih hz hrun (hsub.subset he) (fun e => hcs (by
        have := (change_grows hch).2.2 c
        rw [e] at this
        exact List.eq_nil_of_subset_nil this.subset)) (fun q hq => hparts q (List.mem_append_right _ hq))
    -- an action that is no part of the call
    have skip : ∀ i, (∀ s', ∃ new, z.inbox s' = l.inbox s' ++ new ∧ new.filter (invokes i) = []) → partsOf s r (l.taken w [a]) = [] →
        (∃ new, l'.inbox c = z.inbox c ++ new ∧ AllHandedOn i g (partsOf s r (z.taken w as)) (new.filter (invokes i)) ∧
          ∀ s' ≠ c, ∃ new, l'.inbox s' = z.inbox s' ++ new ∧ new.filter (invokes i) = []) →
        ∃ new, l'.inbox c = l.inbox c ++ new ∧ AllHandedOn i g (partsOf s r (l.taken w (a :: as))) (new.filter (invokes i)) ∧
          ∀ s' ≠ c, ∃ new, l'.inbox s' = l.inbox s' ++ new ∧ new.filter (invokes i) = [] := by
      intro i h1 h2 ⟨new, e1, e2, e3⟩
      obtain ⟨n1, e4, e5⟩ := h1 c
      refine ⟨n1 ++ new, by rw [e1, e4, List.append_assoc], ?_, fun s' hs' => ?_⟩
      · rw [htk, partsOf_append, h2, List.filter_append, e5]; exact e2
      · obtain ⟨n2, e6, e7⟩ := h1 s'
        obtain ⟨n3, e8, e9⟩ := e3 s' hs'
        exact ⟨n2 ++ n3, by rw [e8, e6, List.append_assoc], by rw [List.filter_append, e7, e9]; rfl⟩
    cases tstep ha with
    | other h1 h2 h3 h4 =>
      have hno : partsOf s r (l.taken w [a]) = [] := by
        rw [partsOf, List.filter_eq_nil_iff.2]
        · rfl
        · intro q hq hcond
          exact h2 q hq (part_dealer (of_decide_eq_true hcond).2)
      have hquiet : ∀ i s', ∃ new, z.inbox s' = l.inbox s' ++ new ∧ new.filter (invokes i) = [] := fun i s' => by
        obtain ⟨new, e, hn⟩ := h3 s'
        exact ⟨new, e, fromBroker_invokes hn i⟩
      refine ⟨fun i hi => skip i (hquiet i) hno (ihS i (by rw [h4.1]; exact hi)), fun hn => ?_⟩
      obtain ⟨i, hi, hrest⟩ := ihN (by rw [h4.1]; exact hn)
      exact ⟨i, by omega, skip i (hquiet i) hno hrest⟩
    | dealer p m rest wo rnd h1 h2 h3 h4 h5 h6 h7 h8 =>
      rw [h7] at hdz
      have hlen : l.sys.dh.length < 2 ^ 53 := hdz
      by_cases hpm : p = s ∧ isPart r m = true
      · obtain ⟨rfl, hcl⟩ := hpm
        cases m <;> simp only [isPart, Bool.false_eq_true] at hcl
        rename_i r' o p' a' k bin
        have hr : r' = r := by simpa using hcl
        subst hr
        obtain ⟨rfl, hprog⟩ := hparts (p, .call r' o p' a' k bin) (by rw [h4]; exact .head _) _ _ _ _ _ rfl
        have hsub2 : ∀ e ∈ l.sys.dh, e ∈ l'.sys.dh := fun e he => g2.subset (hsub.subset he)
        have ho : Dealer.owner l.sys.dh p' = some (c, g) :=
          owner_kept hh (Nat.le_of_lt hlen) (fun e he => hsg e (hsub2 e he)) he hreg (fun e he => hu e (hsub2 e he)) (fun e he => hc.2 e (hsub2 e he))
        have hA := reach_att hx hbl
        have hatt : Dealer.attached l.sys.dh c := hA.jd c (hA.sj c hcs)
          ⟨fun e he => hc.1 e (g1.subset ((change_hist hch).1.subset he)), fun e he => hc.2 e (hsub2 e he)⟩
        obtain ⟨i, out, k1, k2, k3, k4, k5⟩ := part_step hh hlen (fun e he => hsg e (hsub2 e he)) ho hatt h3 hprog
        obtain ⟨new, e1, e2, e3⟩ := ihS i (by rw [h6]; exact k4)
        have hconc : ∃ new, l'.inbox c = l.inbox c ++ new ∧ AllHandedOn i g (partsOf p r' (l.taken w (a :: as))) (new.filter (invokes i)) ∧
            ∀ s' ≠ c, ∃ new, l'.inbox s' = l.inbox s' ++ new ∧ new.filter (invokes i) = [] := by
          refine ⟨out :: new, ?_, ?_, fun s' hs' => ?_⟩
          · rw [e1, h8, k1, dealerOut, messagesFor_one, if_pos rfl, List.append_assoc]; rfl
          · rw [htk, partsOf_append, h4, List.filter_cons, if_pos k2]
            have : partsOf p r' [(p, .call r' o p' a' k bin)] = [.call r' o p' a' k bin] := by simp [partsOf, isPart]
            rw [this]
            exact .cons k3 e2
          · obtain ⟨n, e4, e5⟩ := e3 s' hs'
            exact ⟨n, by rw [e4, h8, k1, dealerOut, messagesFor_one, if_neg (Ne.symm hs'), List.append_nil], e5⟩
        refine ⟨fun i' hi' => ?_, fun hn => ?_⟩
        · rcases k5 with k5 | ⟨k5, -⟩
          · rw [k5] at hi'; cases hi'; exact hconc
          · rw [k5] at hi'; cases hi'
        · rcases k5 with k5 | ⟨-, k5⟩
          · rw [k5] at hn; cases hn
          · exact ⟨i, .inr k5, hconc⟩
      · have hno : partsOf s r (l.taken w [a]) = [] := by
          rw [h4, partsOf, List.filter_eq_nil_iff.2]
          · rfl
          · intro q hq hcond
            cases List.mem_singleton.1 hq
            exact hpm (by simpa using hcond)
        have hlink := link_kept h2 h3 hpm
        have hg := gen_grows hh hlen h3
        refine ⟨fun i hi => skip i (fun s' => ⟨_, h8 s', not_for_others hh hlen h3 hpm (.inl hi) s'⟩) hno (ihS i (by rw [h6, hlink]; exact hi)), fun hn => ?_⟩
        obtain ⟨i, hi, hrest⟩ := ihN (by rw [h6, hlink]; exact hn)
        rw [h6] at hi
        exact ⟨i, by omega, skip i (fun s' => ⟨_, h8 s', not_for_others hh hlen h3 hpm (.inr hi) s'⟩) hno hrest⟩

/-- **C129** Client `c` has registered `u` exclusively, and neither gives it up nor is removed.  During these actions the router takes CALLs
with request ID `r` from `s`, all for `u` and all marked as progressive.  Then there is one invocation ID `i` under which `c` gets them: one
INVOCATION for each CALL, with its content, in the order in which the router took them; and no other INVOCATION with that ID is sent, to `c` or
to anyone else. -/
theorem C129_parts_handed_on {l0 l1 : Log} (h : Log.Reach w l0) {as : List Action} (hrun : l0.run w as = some l1)
    (hb : l1.sys.bh.length ≤ 2 ^ 53) (hd : l1.sys.dh.length ≤ 2 ^ 53) {c q g : Nat} {u : Str} (hreg : .registered q g ∈ l0.inbox c)
    (hq : ∀ o p, .register q o p ∈ l1.sys.sent c → p = u)
    (hsingle : ∀ s q o, .register q o u ∈ l1.sys.sent s → o.text (str "invoke") = [] ∨ o.text (str "invoke") = str "single")
    (hu : ∀ q, .unregister q g ∉ l1.sys.sent c) (hc : Stays l1.sys c) {s r : Nat}
    (hparts : ∀ o p a k bin, (s, .call r o p a k bin) ∈ l0.taken w as → p = u ∧ o.flag (str "progress") = true) :
    ∃ i new, l1.inbox c = l0.inbox c ++ new ∧ AllHandedOn i g (partsOf s r (l0.taken w as)) (new.filter (invokes i)) ∧
      ∀ s' ≠ c, ∃ new, l1.inbox s' = l0.inbox s' ++ new ∧ new.filter (invokes i) = [] := by
  have hx := log_sys h
  have h1 := reach_sent (log_sys (log_run h as hrun))
  obtain ⟨g1, g2, g3, -⟩ := run_grows as hrun
  obtain ⟨ro, p', wo, rnd, he⟩ := registered_event h (Nat.le_trans g1.length_le hb) hreg
  have hsent := (reach_sent hx).dh _ he _ _ _ _ rfl
  have hp : p' = u := hq ro p' ((g3 c).subset hsent)
  subst hp
  have := run_parts as h hrun hb hd (fun e he s q o wo rnd hop => hsingle s q o (h1.dh e he _ _ _ _ hop)) he ⟨q, ro, wo, rnd, q, c, rfl⟩
    (fun e he q wo rnd hop => hu q (h1.dh e he _ _ _ _ hop)) hc (List.ne_nil_of_mem hsent)
    (fun x hx o p a k bin e => hparts o p a k bin (by rw [← e]; exact hx)) (s := s) (r := r)
  cases hi : l0.sys.dealer.invByCall (s, r) with
  | some i => exact ⟨i, this.1 i hi⟩
  | none =>
    obtain ⟨i, -, h⟩ := this.2 hi
    exact ⟨i, h⟩

/-- An invocation goes with CALL `r` of `s` only if the dealer was given such a CALL. -/
theorem link_called {l : Log} (h : Log.Reach w l) {s r : Nat} (hi : l.sys.dealer.invByCall (s, r) ≠ none) :
    ∃ e ∈ l.sys.dh, ∃ m wo rnd, e.op = .receive s m wo rnd ∧ isPart r m = true := by
  induction h with
  | new => exact absurd rfl hi
  | act a hl ha ih =>
    rename_i l l'
    have hs := (change_hist (log_change ha)).2
    have old : l.sys.dealer.invByCall (s, r) ≠ none → ∃ e ∈ l'.sys.dh, ∃ m wo rnd, e.op = .receive s m wo rnd ∧ isPart r m = true := fun hi => by
      obtain ⟨e, he, hp⟩ := ih hi
      exact ⟨e, hs.subset he, hp⟩
    cases tstep ha with
    | other h1 h2 h3 h4 => exact old (by rw [← h4.1]; exact hi)
    | dealer p m rest wo rnd h1 h2 h3 h4 h5 h6 h7 h8 =>
      by_cases hpm : p = s ∧ isPart r m = true
      · obtain ⟨rfl, hp⟩ := hpm
        exact ⟨_, by rw [h7]; exact .head _, m, wo, rnd, rfl, hp⟩
      · rw [h6, link_kept h2 h3 hpm] at hi
        exact old hi

theorem gets_the_call {l0 l1 : Log} (h : Log.Reach w l0) {as : List Action} (hrun : l0.run w as = some l1)
    (hb : l1.sys.bh.length ≤ 2 ^ 53) (hd : l1.sys.dh.length ≤ 2 ^ 53) {c g : Nat} {u : Str} {e : Dealer.Event} (he : e ∈ l0.sys.dh)
    (hreg : Dealer.registeredAs c u g e)
    (hsingle : ∀ s q o, .register q o u ∈ l1.sys.sent s → o.text (str "invoke") = [] ∨ o.text (str "invoke") = str "single")
    (hu : ∀ q, .unregister q g ∉ l1.sys.sent c) (hc : Stays l1.sys c) {s r : Nat}
    (hnew : ∀ e ∈ l0.sys.dh, ∀ o p a k bin wo rnd, e.op ≠ .receive s (.call r o p a k bin) wo rnd)
    (hparts : ∀ o p a k bin, .call r o p a k bin ∈ l1.sys.sent s → p = u ∧ o.flag (str "progress") = true)
    (hup : l1.sys.up s = []) (hdown : l1.sys.down c = []) :
    ∃ i, AllHandedOn i g ((l1.outbox s).filter (isPart r)) ((l1.got c).filter (invokes i)) := by
  have hx := log_sys h
  have h1 := reach_sent (log_sys (log_run h as hrun))
  obtain ⟨g1, g2, g3, -⟩ := run_grows as hrun
  have hb0 := Nat.le_trans g1.length_le hb
  have hd0 := Nat.le_trans g2.length_le hd
  have hsent : l0.sys.sent c ≠ [] := by
    obtain ⟨q, o, wo, rnd, q', s', rfl⟩ := hreg
    exact List.ne_nil_of_mem ((reach_sent hx).dh _ he _ _ _ _ rfl)
  have hnone : ∀ e ∈ l0.sys.dh, ∀ m wo rnd, e.op = .receive s m wo rnd → isPart r m = false := by
    intro e he m wo rnd hop
    cases m <;> try rfl
    rename_i r' o p a k bin
    by_cases e : r' = r
    · subst e; exact (hnew _ he _ _ _ _ _ _ _ hop).elim
    · simp [isPart, e]
  have hlink : l0.sys.dealer.invByCall (s, r) = none := by
    refine Classical.byContradiction fun hn => ?_
    obtain ⟨e, he, m, wo, rnd, hop, hp⟩ := link_called h hn
    rw [hnone e he m wo rnd hop] at hp
    cases hp
  obtain ⟨t1, t2⟩ := run_taken as h hrun
  obtain ⟨-, this⟩ := run_parts as h hrun hb hd (fun e he s q o wo rnd hop => hsingle s q o (h1.dh e he _ _ _ _ hop)) he hreg
    (fun e he q wo rnd hop => hu q (h1.dh e he _ _ _ _ hop)) hc hsent
    (fun x hx o p a k bin e => hparts o p a k bin (by have := t1 x hx; rw [e] at this; exact this)) (s := s) (r := r)
  obtain ⟨i, hi, new, e1, e2, -⟩ := this hlink
  refine ⟨i, ?_⟩
  have hold : (l0.inbox c).filter (invokes i) = [] := by
    refine List.filter_eq_nil_iff.2 fun m hm hinv => ?_
    cases m <;> simp only [invokes, Bool.false_eq_true] at hinv
    rename_i j g' d a k bin
    have hj : j = i := by simpa using hinv
    subst hj
    obtain ⟨e, he, c', r', hin⟩ := invocation_event h hb0 hm
    have := (Dealer.hist_cinv (reach_hist hx).2 hd0).invs e he _ _ _ _ hin
    omega
  have hgot : (l1.got c).filter (invokes i) = new.filter (invokes i) := by
    rw [Log.inbox, hdown, List.append_nil] at e1
    rw [e1, List.filter_append, hold]; rfl
  have hout : (l1.outbox s).filter (isPart r) = partsOf s r (l0.taken w as) := by
    obtain ⟨n, e3, e4⟩ := t2 s
    obtain ⟨old, e5, e6⟩ := reach_given h s
    have f1 : old.filter (isPart r) = [] := by
      refine List.filter_eq_nil_iff.2 fun m hm hp => ?_
      obtain ⟨e, he, wo, rnd, hop⟩ := e6 m hm (part_dealer hp)
      rw [hnone e he m wo rnd hop] at hp
      cases hp
    rw [e3, e5, List.append_assoc, List.filter_append, f1, List.nil_append, e4, hup, List.append_nil, partsOf, List.filter_map, List.filter_filter]
    congr 1
    exact List.filter_congr fun x _ => by
      by_cases h1 : x.1 = s <;> cases h2 : isPart r x.2 <;> simp [h1, h2]
  rw [hgot, hout]
  exact e2

/-- **C129** Client `c` has registered `u` exclusively before the router takes a CALL with request ID `r` from `s`, and neither gives it up nor is removed.
All CALLs that `s` sends with that ID are for `u` and marked as progressive.  Once the router has taken all that `s` sent, and `c` all that was
sent to it, `c` has got the call of `s`, complete and in the order in which `s` sent its parts: one INVOCATION for each CALL, all with one ID,
which no other INVOCATION has that `c` got. -/
theorem C129_callee_gets_the_call {l0 l1 : Log} (h : Log.Reach w l0) {as : List Action} (hrun : l0.run w as = some l1)
    (hb : l1.sys.bh.length ≤ 2 ^ 53) (hd : l1.sys.dh.length ≤ 2 ^ 53) {c q g : Nat} {u : Str} (hreg : .registered q g ∈ l0.inbox c)
    (hq : ∀ o p, .register q o p ∈ l1.sys.sent c → p = u)
    (hsingle : ∀ s q o, .register q o u ∈ l1.sys.sent s → o.text (str "invoke") = [] ∨ o.text (str "invoke") = str "single")
    (hu : ∀ q, .unregister q g ∉ l1.sys.sent c) (hc : Stays l1.sys c) {s r : Nat}
    (hnew : ∀ e ∈ l0.sys.dh, ∀ o p a k bin wo rnd, e.op ≠ .receive s (.call r o p a k bin) wo rnd)
    (hparts : ∀ o p a k bin, .call r o p a k bin ∈ l1.sys.sent s → p = u ∧ o.flag (str "progress") = true)
    (hup : l1.sys.up s = []) (hdown : l1.sys.down c = []) :
    ∃ i, AllHandedOn i g ((l1.outbox s).filter (isPart r)) ((l1.got c).filter (invokes i)) := by
  obtain ⟨ro, p', wo, rnd, he⟩ := registered_event h (Nat.le_trans (run_grows as hrun).1.length_le hb) hreg
  have hp : p' = u := hq ro p' (((run_grows as hrun).2.2.1 c).subset ((reach_sent (log_sys h)).dh _ he _ _ _ _ rfl))
  subst hp
  exact gets_the_call h hrun hb hd he ⟨q, ro, wo, rnd, q, c, rfl⟩ hsingle hu hc hnew hparts hup hdown

/-- Client 2 registers "p". -/
def beforeParts : List Action := three ++ does 2 (.register 1 none (str "p")) ++ [.deliver 2]

/-- A part of call 7, with its content. -/
def part (x : Str) : Msg := .call 7 (some [(str "progress", .bool true)]) (str "p") (some [.str x]) none Bin.none

/-- Client 1 makes call 7 in three parts; client 3 calls "p" meanwhile, and client 2 yields. -/
def parts : List Action :=
  does 1 (part (str "a")) ++ does 3 (.call 7 none (str "p") (some [.str (str "z")]) none Bin.none) ++ does 1 (part (str "b")) ++ [.deliver 2] ++
  does 2 (.yield 2 none none none Bin.none) ++ does 1 (part (str "c")) ++ [.deliver 2, .deliver 2, .deliver 2]

/-- ID, "progress" and first argument of an INVOCATION. -/
def givenTo : Msg → Nat × Bool × Str
  | .invocation i _ d (some (.str x :: _)) _ _ => (i, d.flag (str "progress"), x)
  | _ => (0, false, [])

/-- The messages sent by then. -/
theorem sent_parts {s : Nat} {m : Msg} (hm : m ∈ (logged (beforeParts ++ parts)).sys.sent s) :
    (s = 1 ∧ ∃ x, m = part x) ∨ (s = 2 ∧ (m = .yield 2 none none none Bin.none ∨ m = .register 1 none (str "p"))) ∨
    (s = 3 ∧ m = .call 7 none (str "p") (some [.str (str "z")]) none Bin.none) := by
  have hj := sender_joined (reach_logged _) (by decide +kernel) hm
  have hj' : (logged (beforeParts ++ parts)).sys.joined = [3, 2, 1] := by decide +kernel
  rw [hj'] at hj
  simp at hj
  have h1 : (logged (beforeParts ++ parts)).sys.sent 1 = [part (str "c"), part (str "b"), part (str "a")] := rfl
  have h2 : (logged (beforeParts ++ parts)).sys.sent 2 = [.yield 2 none none none Bin.none, .register 1 none (str "p")] := rfl
  have h3 : (logged (beforeParts ++ parts)).sys.sent 3 = [.call 7 none (str "p") (some [.str (str "z")]) none Bin.none] := rfl
  rcases hj with rfl | rfl | rfl
  · rw [h3] at hm; simp at hm; exact .inr (.inr ⟨rfl, hm⟩)
  · rw [h2] at hm; simp at hm; exact .inr (.inl ⟨rfl, hm⟩)
  · rw [h1] at hm
    simp at hm
    rcases hm with rfl | rfl | rfl <;> exact .inl ⟨rfl, _, rfl⟩

example : ∃ l0 l1, Log.Reach Dealer.noWild l0 ∧ l0.run Dealer.noWild parts = some l1 ∧ l1.sys.bh.length ≤ 2 ^ 53 ∧ l1.sys.dh.length ≤ 2 ^ 53 ∧
    .registered 1 1 ∈ l0.inbox 2 ∧ (∀ o p, .register 1 o p ∈ l1.sys.sent 2 → p = str "p") ∧
    (∀ s q o, .register q o (str "p") ∈ l1.sys.sent s → o.text (str "invoke") = [] ∨ o.text (str "invoke") = str "single") ∧
    (∀ q, .unregister q 1 ∉ l1.sys.sent 2) ∧ Stays l1.sys 2 ∧ (∀ e ∈ l0.sys.dh, ∀ o p a k bin wo rnd, e.op ≠ .receive 1 (.call 7 o p a k bin) wo rnd) ∧
    (∀ o p a k bin, .call 7 o p a k bin ∈ l1.sys.sent 1 → p = str "p" ∧ o.flag (str "progress") = true) ∧
    (∀ o p a k bin, (1, .call 7 o p a k bin) ∈ l0.taken Dealer.noWild parts → p = str "p" ∧ o.flag (str "progress") = true) ∧
    l1.sys.up 1 = [] ∧ l1.sys.down 2 = [] ∧ ((l1.outbox 1).filter (isPart 7)).length = 3 ∧
    (l1.got 2).map givenTo = [(0, false, []), (2, true, str "a"), (3, false, str "z"), (2, true, str "b"), (2, true, str "c")] := by
  have h2 : (Log.new.run Dealer.noWild (beforeParts ++ parts)).isSome = true := by decide +kernel
  have hrun := logged_split _ _ h2
  have hpart : ∀ o p a k bin, .call 7 o p a k bin ∈ (logged (beforeParts ++ parts)).sys.sent 1 → p = str "p" ∧ o.flag (str "progress") = true := by
    intro o p a k bin hm
    rcases sent_parts hm with ⟨-, x, e⟩ | ⟨e, -⟩ | ⟨e, -⟩
    · injection e with e1 e2 e3
      subst e2 e3
      exact ⟨rfl, rfl⟩
    · cases e
    · cases e
  refine ⟨_, _, reach_logged beforeParts, hrun, by decide +kernel, by decide +kernel, .head _, ?_, ?_, ?_, stays_of (by decide +kernel), ?_,
    hpart, ?_, List.isEmpty_iff.1 (by decide +kernel), List.isEmpty_iff.1 (by decide +kernel), by decide +kernel, by decide +kernel⟩
  · intro o p hm
    rcases sent_parts hm with ⟨e, -⟩ | ⟨-, e | e⟩ | ⟨e, -⟩
    · cases e
    · cases e
    · cases e; rfl
    · cases e
  · intro s q o hm
    rcases sent_parts hm with ⟨-, x, e⟩ | ⟨-, e | e⟩ | ⟨-, e⟩
    · cases e
    · cases e
    · cases e; exact .inl rfl
    · cases e
  · intro q hm
    rcases sent_parts hm with ⟨e, -⟩ | ⟨-, e | e⟩ | ⟨e, -⟩ <;> cases e
  · intro e he o p a k bin wo rnd hop
    have hq : (logged beforeParts).sys.dh.all (fun e => match e.op with | .receive _ m _ _ => asksRegister m | _ => true) = true := by decide +kernel
    have h4 := List.all_eq_true.1 hq e he
    rw [hop] at h4
    cases h4
  · intro o p a k bin hm
    exact hpart o p a k bin ((run_taken _ (reach_logged beforeParts) hrun).1 _ hm)

end Wamp.System
