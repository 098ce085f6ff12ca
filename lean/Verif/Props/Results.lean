import Verif.Spec.Results
import Verif.Props.Agree
import Verif.Props.Answered
/-!
# C121: a caller gets what its callee yields
-/
namespace Wamp.System
open Wamp.Session

variable {w : Str → Str → Bool}

theorem answers_dealer {i : Nat} {m : Msg} (h : answersInvocation i m) : forDealer m := by cases m <;> simp only [answersInvocation] at h <;> trivial

/-- What an action does to the calls under way, and what the router takes. -/
inductive TStep (w : Str → Str → Bool) (l : Log) (a : Action) (l' : Log) : Prop where
  | other : l'.sys.dealer.pending = l.sys.dealer.pending → (∀ q ∈ l.taken w [a], ¬forDealer q.2) →
      (∀ s, ∃ new, l'.inbox s = l.inbox s ++ new ∧ ∀ m ∈ new, fromBroker m) →
      l'.sys.dealer.invByCall = l.sys.dealer.invByCall ∧ l.sys.dealer.idGen ≤ l'.sys.dealer.idGen → TStep w l a l'
  | dealer (p m rest wo rnd) : l.sys.up p = m :: rest → forDealer m → (Dealer.step w l.sys.dealer (.receive p m wo rnd)).2 ≠ .panic →
      l.taken w [a] = [(p, m)] → l'.sys.up = upd l.sys.up p rest → l'.sys.dealer = (Dealer.step w l.sys.dealer (.receive p m wo rnd)).1 →
      l'.sys.dh = ⟨.receive p m wo rnd, (Dealer.step w l.sys.dealer (.receive p m wo rnd)).2⟩ :: l.sys.dh →
      (∀ s, l'.inbox s = l.inbox s ++ messagesFor s (dealerOut (Dealer.step w l.sys.dealer (.receive p m wo rnd)).2)) → TStep w l a l'

theorem admin_gen {b : Dealer.State} {dop : Dealer.Op} (h : adminD dop) (hnp : (Dealer.step w b dop).2 ≠ .panic) :
    b.idGen ≤ (Dealer.step w b dop).1.idGen := by
  cases dop <;> simp only [adminD] at h <;> simp only [Dealer.step] at hnp ⊢
  case add d => simp only [Dealer.addSession]; split <;> exact Nat.le_refl _
  case disclose on => exact Nat.le_refl _
  case remove s order =>
    rcases Dealer.remove_cases b s order with ⟨-, e⟩ | ⟨-, e⟩ | ⟨-, -, f, -⟩
    · rw [e]; exact Nat.le_refl _
    · rw [e] at hnp; exact absurd rfl hnp
    · exact Nat.le_of_eq f.idGen.symm

theorem tstep {l l' : Log} {a : Action} (h : l.act w a = some l') : TStep w l a l' := by
  have same : ∀ {z : Log}, (∀ s, z.inbox s = l.inbox s) → ∀ s, ∃ new, z.inbox s = l.inbox s ++ new ∧ ∀ m ∈ new, fromBroker m :=
    fun e s => ⟨[], by rw [e, List.append_nil], fun _ h => nomatch h⟩
  have htk : l.taken w [a] = (match a with
     | .route p _ _ _ => ((l.sys.up p).take 1).map fun m => (p, m)
     | _ => []) := by
    simp only [Log.taken, h, List.append_nil]
    cases a <;> rfl
  obtain ⟨x, got⟩ := l
  obtain ⟨y, h1, rfl⟩ := Option.map_eq_some_iff.1 h
  have none : ∀ {q : Nat × Msg}, q ∈ ([] : List (Nat × Msg)) → ¬forDealer q.2 := fun h => nomatch h
  cases a with
  | join d =>
    simp only [Sys.act] at h1
    split at h1
    · cases h1
    · obtain ⟨hnp, rfl⟩ := onDealer_some h1
      exact .other (admin_frame (w := w) (dop := .add d) trivial hnp).1 (by rw [htk]; exact fun _ => none) (same fun _ => rfl)
        ⟨(admin_frame (w := w) (dop := .add d) trivial hnp).2, admin_gen trivial hnp⟩
  | leave s o o' =>
    simp only [Sys.act] at h1
    obtain ⟨hnp, rfl⟩ := onDealer_some h1
    exact .other (admin_frame (w := w) (dop := .remove s o') trivial hnp).1 (by rw [htk]; exact fun _ => none) (same fun _ => rfl)
      ⟨(admin_frame (w := w) (dop := .remove s o') trivial hnp).2, admin_gen trivial hnp⟩
  | disclose p c =>
    simp only [Sys.act] at h1
    obtain ⟨hnp, rfl⟩ := onDealer_some h1
    exact .other rfl (by rw [htk]; exact fun _ => none) (same fun _ => rfl) ⟨rfl, Nat.le_refl _⟩
  | send s data m =>
    simp only [Sys.act] at h1
    split at h1
    · split at h1
      · cases h1; exact .other rfl (by rw [htk]; exact fun _ => none) (same fun _ => rfl) ⟨rfl, Nat.le_refl _⟩
      · cases h1
    · cases h1
  | deliver s =>
    simp only [Sys.act] at h1
    split at h1
    · cases h1
    · rename_i m rest hd
      cases h1
      refine .other rfl (by rw [htk]; exact fun _ => none) (same fun s' => ?_) ⟨rfl, Nat.le_refl _⟩
      simp only [Log.inbox, upd, hd]
      split
      · rename_i e; subst e; simp [hd]
      · rfl
  | route p wo so rnd =>
    simp only [Sys.act] at h1
    cases hup : x.up p with
    | nil => rw [hup] at h1; cases h1
    | cons m rest =>
      rw [hup] at h1
      simp only [hup, List.take_succ_cons, List.take_zero, List.map_cons, List.map_nil] at htk
      have dealer : forDealer m → ((({ x with up := upd x.up p rest } : Sys).onDealer w (.receive p m wo rnd)).map fun y =>
          y.post (dealerOut (Dealer.step w x.dealer (.receive p m wo rnd)).2)) = some y → TStep w ⟨x, got⟩ (.route p wo so rnd) ⟨y, got⟩ := by
        intro hm h
        obtain ⟨z, hz, rfl⟩ := Option.map_eq_some_iff.1 h
        obtain ⟨hnp, rfl⟩ := onDealer_some hz
        exact .dealer p m rest wo rnd hup hm hnp htk rfl rfl rfl fun s => by simp only [Log.inbox, Sys.post, List.append_assoc]
      have broker : ∀ {op : Broker.Op}, callB p m wo so = some op →
          (({ x with up := upd x.up p rest } : Sys).onBroker w op).post (brokerOut (Broker.step w x.broker op).2) = y →
          TStep w ⟨x, got⟩ (.route p wo so rnd) ⟨y, got⟩ := by
        intro op hop e
        subst e
        refine .other rfl (fun q hq => ?_) (fun s => ⟨messagesFor s (brokerOut (Broker.step w x.broker op).2), ?_, fun m hm => ?_⟩) ⟨rfl, Nat.le_refl _⟩
        · rw [htk] at hq
          cases List.mem_singleton.1 hq
          cases m <;> simp only [callB, reduceCtorEq] at hop <;> exact id
        · simp only [Log.inbox, Sys.post, Sys.onBroker, List.append_assoc]
        · exact brokerOut_from hop _ (mem_messagesFor.1 hm)
      cases m with
      | publish q o t a k => cases h1; exact broker (op := .publish p q o t a k wo so) rfl rfl
      | subscribe q o t => cases h1; exact broker (op := .receive p (.subscribe q o t)) rfl rfl
      | unsubscribe q g => cases h1; exact broker (op := .receive p (.unsubscribe q g)) rfl rfl
      | call => simp only [Sys.handle] at h1; exact dealer trivial h1
      | yield => simp only [Sys.handle] at h1; exact dealer trivial h1
      | register => simp only [Sys.handle] at h1; exact dealer trivial h1
      | unregister => simp only [Sys.handle] at h1; exact dealer trivial h1
      | error => simp only [Sys.handle] at h1; exact dealer trivial h1
      | _ =>
        cases h1
        refine .other rfl (fun q hq => ?_) (same fun _ => rfl) ⟨rfl, Nat.le_refl _⟩
        rw [htk] at hq
        cases List.mem_singleton.1 hq
        exact id

/-- No CALL `r` of `s` is under way. -/
def noCall (b : Dealer.State) (s r : Nat) : Prop := ∀ j pd, b.pending.get j = some pd → pd.callerID = s → pd.requestID ≠ r

/-- What the dealer does with message `m` of `p` while CALL `r` of `s` is under way as invocation `i`. -/
theorem live_step {h : List Dealer.Event} {b : Dealer.State} (hh : Dealer.Hist w h b) (hlen : h.length < 2 ^ 53) {s r i p : Nat} {m : Msg} {wo : List Str}
    {rnd : Nat} {T : Session.State} {up sent : List Msg} (hd : DI s b T up sent) (hr : p = s → request m ≠ some (48, r))
    (hnp : (Dealer.step w b (.receive p m wo rnd)).2 ≠ .panic)
    (hs : b.sessions s ≠ none) {pd : Dealer.Pending} (hp : b.pending.get i = some pd) (hc : pd.callerID = s) (hq : pd.requestID = r) :
    ((Dealer.step w b (.receive p m wo rnd)).1.pending.get i = some pd ∧
      (messagesFor s (dealerOut (Dealer.step w b (.receive p m wo rnd)).2)).filter (answersCall r) = [] ∧
      ∀ rest, answersTo pd.receiveProgress i (m :: rest) = answersTo pd.receiveProgress i rest) ∨
    ((Dealer.step w b (.receive p m wo rnd)).1.pending.get i = some pd ∧
      (∃ out, messagesFor s (dealerOut (Dealer.step w b (.receive p m wo rnd)).2) = [out] ∧ answersCall r out = true ∧
        PassedOn pd.receiveProgress r m out) ∧
      ∀ rest, answersTo pd.receiveProgress i (m :: rest) = m :: answersTo pd.receiveProgress i rest) ∨
    (noCall (Dealer.step w b (.receive p m wo rnd)).1 s r ∧
      (∃ out, messagesFor s (dealerOut (Dealer.step w b (.receive p m wo rnd)).2) = [out] ∧ answersCall r out = true ∧
        PassedOn pd.receiveProgress r m out) ∧
      ∀ rest, answersTo pd.receiveProgress i (m :: rest) = [m]) := by
  have hmine : ∀ {j pd'}, b.pending.get j = some pd' → pd'.callerID = s → pd'.requestID = r → j = i := fun h1 h2 h3 =>
    hd.uniq _ _ _ _ h1 hp h2 hc (h3.trans hq.symm)
  have hother : ∀ {c : Nat} {out : Msg}, (c = s → answersCall r out = false) → (messagesFor s [(c, out)]).filter (answersCall r) = [] := by
    intro c out h
    rw [messagesFor_one]
    split
    · rename_i e; simp [h e]
    · rfl
  have hnil : (messagesFor s []).filter (answersCall r) = [] := rfl
  have hdel : ∀ {b' : Dealer.State}, b'.pending = b.pending.del i → noCall b' s r := by
    intro b' e j pd' h1 h2 h3
    rw [e, AMap.get_del] at h1
    split at h1
    · cases h1
    · rename_i hne; exact hne (hmine h1 h2 h3)
  cases m <;> simp only [Dealer.step, Dealer.receive] at hnp ⊢
  case call r' o u a k bin =>
    refine .inl ?_
    have hne : p = s → r' ≠ r := by
      rintro e rfl
      exact hr e rfl
    rcases Dealer.call_cases w b p r' o u a k bin wo rnd with ⟨-, e⟩ | ⟨e, -⟩ | ⟨x, c, _, j, -, -, -, hst, hout⟩
    · rw [e]
      exact ⟨hp, hother fun e => by simp [Dealer.noSuchProcedure, newError, answersCall, hne e], fun _ => rfl⟩
    · rw [e] at hnp; exact absurd rfl hnp
    · refine ⟨?_, ?_, fun _ => rfl⟩
      · rcases hst with ⟨-, hj, e⟩ | ⟨-, -, e⟩
        · rw [e, hj, AMap.get_set, if_neg]
          · exact hp
          · have h1 := ((Dealer.hist_cinv hh (Nat.le_of_lt hlen)).pen i pd hp).2.1
            have h2 := Dealer.nextID_small (Nat.lt_of_le_of_lt (Dealer.hist_rinv hh (Nat.le_of_lt hlen)).gen hlen)
            rw [h2]
            simp only
            omega
        · rw [e]; exact hp
      · rcases hout with ⟨-, e⟩ | ⟨c', -, -, e⟩ <;> rw [e]
        · exact hnil
        · obtain ⟨d', a', k', bin', e'⟩ := Dealer.invocationFor_shape b x j p o u a k bin c'
          rw [e']
          exact hother fun _ => rfl
  case yield j o a k bin =>
    rcases Dealer.yield_cases b j o a k bin with ⟨hn, e⟩ | ⟨pd', hp', hst, hres⟩
    · rw [e]
      refine .inl ⟨hp, hnil, fun rest => ?_⟩
      have : j ≠ i := by rintro rfl; rw [hp] at hn; cases hn
      simp only [answersTo, if_neg this]
    · by_cases hj : j = i
      · subst hj
        rw [hp] at hp'
        cases hp'
        rw [hc, hq] at hres
        rcases hres with ⟨e, -⟩ | ⟨c, -, hres⟩
        · exact absurd e hs
        obtain ⟨d, a', k', bin', e3, e4, e5, e6⟩ := Dealer.resultFor_shape r (pd.receiveProgress && o.flag Dealer.optProgress) a k bin c
        have hout : ∃ out, messagesFor s (dealerOut ((Dealer.yield b j o a k bin).2.map fun x => .msg x.1 x.2)) = [out] ∧ answersCall r out = true ∧
            PassedOn pd.receiveProgress r (.yield j o a k bin) out := by
          rw [hres, e3]
          refine ⟨_, by rw [Res.map_ok, dealerOut, messagesFor_one, if_pos rfl], by simp [answersCall], d, a', k', bin', rfl, ?_, e4⟩
          cases hb : (bin.binary && c.static)
          · obtain ⟨rfl, rfl, rfl⟩ := e6 hb
            exact .inl ⟨rfl, rfl, rfl⟩
          · obtain ⟨rfl, rfl, rfl⟩ := e5 hb
            rw [Bool.and_eq_true] at hb
            refine .inr ⟨hb.1, rfl, rfl, ?_⟩
            cases bin; simp_all
        cases hmore : (pd.receiveProgress && o.flag Dealer.optProgress)
        · refine .inr (.inr ⟨hdel ?_, hout, fun rest => ?_⟩)
          · rw [hst, hmore]; rfl
          · have : ¬(pd.receiveProgress = true ∧ o.flag (str "progress") = true) := by
              rw [← Bool.and_eq_true]; exact fun h => by rw [show (pd.receiveProgress && o.flag (str "progress")) = false from hmore] at h; cases h
            simp only [answersTo, if_true, if_neg this]
        · refine .inr (.inl ⟨?_, hout, fun rest => ?_⟩)
          · rw [hst, hmore]; exact hp
          · have : pd.receiveProgress = true ∧ o.flag (str "progress") = true := Bool.and_eq_true_iff.1 hmore
            simp only [answersTo, if_true, this, and_self]
      · refine .inl ⟨?_, ?_, fun rest => by simp only [answersTo, if_neg hj]⟩
        · rw [hst]
          split
          · exact hp
          · simp only [AMap.get_del, if_neg (Ne.symm hj)]; exact hp
        · rcases hres with ⟨-, e⟩ | ⟨c, -, e⟩ <;> rw [e]
          · exact hnil
          · obtain ⟨d, a', k', bin', e3, -⟩ := Dealer.resultFor_shape pd'.requestID (pd'.receiveProgress && o.flag Dealer.optProgress) a k bin c
            rw [e3]
            exact hother fun e => by simpa [answersCall] using fun e' => hj (hmine hp' e e')
  case error t j d u a k =>
    rcases Dealer.error_cases b t j d u a k with ⟨hn, e⟩ | ⟨rfl, pd', hp', e⟩ <;> rw [e]
    · refine .inl ⟨hp, hnil, fun rest => ?_⟩
      have : ¬(t = 68 ∧ j = i) := by
        rintro ⟨rfl, rfl⟩
        rcases hn with hn | hn
        · exact hn rfl
        · rw [hp] at hn; cases hn
      simp only [answersTo, if_neg this]
    · by_cases hj : j = i
      · subst hj
        rw [hp] at hp'
        cases hp'
        refine .inr (.inr ⟨hdel rfl, ⟨_, by rw [Res.map_ok, dealerOut, messagesFor_one, if_pos hc], ?_, ?_⟩, fun rest => by simp [answersTo]⟩)
        · simp [newError, answersCall, hq]
        · simp only [PassedOn, newError, hq]; cases d <;> rfl
      · refine .inl ⟨?_, ?_, fun rest => by simp only [answersTo, hj, and_false, if_false]⟩
        · simp only [AMap.get_del, if_neg (Ne.symm hj)]; exact hp
        · exact hother fun e => by simpa [newError, answersCall] using fun e' => hj (hmine hp' e e')
  case register r' o u =>
    refine .inl ⟨?_, ?_, fun _ => rfl⟩ <;> rcases Dealer.register_cases b p r' o u with ⟨-, e⟩ | ⟨_, -, ⟨_, -, -, e⟩ | ⟨_, -, -, e⟩ | ⟨-, e⟩⟩ <;> rw [e] <;>
      first | exact hp | exact hnil | exact hother fun _ => rfl
  case unregister r' g =>
    rcases Dealer.unregister_cases b p r' g with e | e | ⟨_, _, -, -, e, f, -⟩
    · rw [e]; exact .inl ⟨hp, hnil, fun _ => rfl⟩
    · rw [e] at hnp; exact absurd rfl hnp
    · refine .inl ⟨?_, ?_, fun _ => rfl⟩
      · rw [f.pending]; exact hp
      · rw [e]; exact hother fun _ => rfl
  all_goals exact .inl ⟨hp, hnil, fun _ => rfl⟩

/-- While CALL `r` of `s` is not under way nothing is said about it. -/
theorem dead_step {b : Dealer.State} {s r p : Nat} {m : Msg} {wo : List Str} {rnd : Nat} (hr : p = s → request m ≠ some (48, r))
    (hnp : (Dealer.step w b (.receive p m wo rnd)).2 ≠ .panic) (hno : noCall b s r) :
    noCall (Dealer.step w b (.receive p m wo rnd)).1 s r ∧
      (messagesFor s (dealerOut (Dealer.step w b (.receive p m wo rnd)).2)).filter (answersCall r) = [] := by
  have hother : ∀ {c : Nat} {out : Msg}, (c = s → answersCall r out = false) → (messagesFor s [(c, out)]).filter (answersCall r) = [] := by
    intro c out h
    rw [messagesFor_one]
    split
    · rename_i e; simp [h e]
    · rfl
  have hnil : (messagesFor s []).filter (answersCall r) = [] := rfl
  have hdel : ∀ {b' : Dealer.State} {i}, b'.pending = b.pending.del i → noCall b' s r := by
    intro b' i e j pd' h1 h2 h3
    rw [e, AMap.get_del] at h1
    split at h1
    · cases h1
    · exact hno _ _ h1 h2 h3
  cases m <;> simp only [Dealer.step, Dealer.receive] at hnp ⊢
  case call r' o u a k bin =>
    have hne : p = s → r' ≠ r := by
      rintro e rfl
      exact hr e rfl
    rcases Dealer.call_cases w b p r' o u a k bin wo rnd with ⟨-, e⟩ | ⟨e, -⟩ | ⟨x, c, _, j, -, -, -, hst, hout⟩
    · rw [e]
      exact ⟨hno, hother fun e => by simp [Dealer.noSuchProcedure, newError, answersCall, hne e]⟩
    · rw [e] at hnp; exact absurd rfl hnp
    · refine ⟨?_, ?_⟩
      · rcases hst with ⟨-, -, e⟩ | ⟨-, -, e⟩
        · rw [e]
          intro j' pd' h1 h2 h3
          simp only [AMap.get_set] at h1
          split at h1
          · cases h1; exact hne h2 h3
          · exact hno _ _ h1 h2 h3
        · rw [e]; exact hno
      · rcases hout with ⟨-, e⟩ | ⟨c', -, -, e⟩ <;> rw [e]
        · exact hnil
        · obtain ⟨d', a', k', bin', e'⟩ := Dealer.invocationFor_shape b x j p o u a k bin c'
          rw [e']
          exact hother fun _ => rfl
  case yield j o a k bin =>
    rcases Dealer.yield_cases b j o a k bin with ⟨hn, e⟩ | ⟨pd', hp', hst, hres⟩
    · rw [e]; exact ⟨hno, hnil⟩
    · refine ⟨?_, ?_⟩
      · rw [hst]
        split
        · exact hno
        · exact hdel rfl
      · rcases hres with ⟨-, e⟩ | ⟨c, -, e⟩ <;> rw [e]
        · exact hnil
        · obtain ⟨d, a', k', bin', e3, -⟩ := Dealer.resultFor_shape pd'.requestID (pd'.receiveProgress && o.flag Dealer.optProgress) a k bin c
          rw [e3]
          exact hother fun e => by simpa [answersCall] using hno _ _ hp' e
  case error t j d u a k =>
    rcases Dealer.error_cases b t j d u a k with ⟨hn, e⟩ | ⟨rfl, pd', hp', e⟩ <;> rw [e]
    · exact ⟨hno, hnil⟩
    · exact ⟨hdel rfl, hother fun e => by simpa [newError, answersCall] using hno _ _ hp' e⟩
  case register r' o u =>
    rcases Dealer.register_cases b p r' o u with ⟨-, e⟩ | ⟨_, -, ⟨_, -, -, e⟩ | ⟨_, -, -, e⟩ | ⟨-, e⟩⟩ <;> rw [e] <;>
      first | exact ⟨hno, hnil⟩ | exact ⟨hno, hother fun _ => rfl⟩
  case unregister r' g =>
    rcases Dealer.unregister_cases b p r' g with e | e | ⟨_, _, -, -, e, f, -⟩
    · rw [e]; exact ⟨hno, hnil⟩
    · rw [e] at hnp; exact absurd rfl hnp
    · refine ⟨?_, ?_⟩
      · intro j pd h1; rw [f.pending] at h1; exact hno j pd h1
      · rw [e]; exact hother fun _ => rfl
  all_goals exact ⟨hno, hnil⟩

/-- Once the router has taken CALL `r` of a client that uses its IDs once, it does not get another. -/
theorem asked_once {x y : Sys} {s r : Nat} (hc : Change w x y) (hf : Fresh y s) (h1 : (48, r) ∈ reqs (x.sent s)) (h2 : (48, r) ∉ reqs (x.up s)) :
    (48, r) ∈ reqs (y.sent s) ∧ (48, r) ∉ reqs (y.up s) := by
  refine ⟨(List.Sublist.filterMap _ ((change_grows hc).2.2 s).sublist).subset h1, ?_⟩
  have less : ∀ {p : Nat} {m : Msg} {rest : List Msg}, x.up p = m :: rest → (48, r) ∉ reqs (upd x.up p rest s) := by
    intro p m rest hu
    simp only [upd]
    split
    · rename_i e
      subst e
      rw [hu] at h2
      exact fun h => h2 ((List.Sublist.filterMap _ (List.sublist_cons_self ..)).subset h)
    · exact h2
  cases hc with
  | admin bop dop j => exact h2
  | deliver p m rest => exact h2
  | broker p m rest wo so op hu => exact less hu
  | dealer p m rest wo rnd hu => exact less hu
  | ignore p m rest hu => exact less hu
  | send p data m c b =>
    simp only [Fresh, upd] at hf ⊢
    split
    · rename_i e
      subst e
      rw [if_pos rfl] at hf
      intro h
      rw [reqs, List.filterMap_append] at h
      rcases List.mem_append.1 h with h | h
      · exact h2 h
      · obtain ⟨m', hm, hk⟩ := List.mem_filterMap.1 h
        cases List.mem_singleton.1 hm
        rw [List.filterMap_cons, hk] at hf
        exact (List.nodup_cons.1 hf).1 h1
    · exact h2

theorem fromBroker_answers {new : List Msg} (h : ∀ m ∈ new, fromBroker m) (r : Nat) : new.filter (answersCall r) = [] := by
  refine List.filter_eq_nil_iff.2 fun m hm => ?_
  have := h m hm
  cases m <;> simp_all [fromBroker, answersCall]

/-- What has been said about CALL `r` was said after the router took it. -/
theorem answers_asked {l : Log} (h : Log.Reach w l) {s : Nat} (hf : Fresh l.sys s) {r : Nat} (hr : (48, r) ∈ reqs (l.sys.sent s) → (48, r) ∈ reqs (l.sys.up s)) :
    (l.inbox s).filter (answersCall r) = [] := by
  induction h with
  | new => rfl
  | act a hl ha ih =>
    rename_i l l'
    have hc := log_change ha
    have hf0 := hf.back hc
    have hr0 : (48, r) ∈ reqs (l.sys.sent s) → (48, r) ∈ reqs (l.sys.up s) := by
      intro h1
      refine Classical.byContradiction fun h2 => ?_
      obtain ⟨h3, h4⟩ := asked_once hc hf h1 h2
      exact h4 (hr h3)
    replace ih := ih hf0 hr0
    have hI := reach_ai (log_sys hl) s hf0
    cases tstep ha with
    | other h1 h2 h3 =>
      obtain ⟨new, e, hnew⟩ := h3 s
      rw [e, List.filter_append, ih, fromBroker_answers hnew]; rfl
    | dealer p m rest wo rnd h1 h2 h3 h4 h5 h6 h7 h8 =>
      rw [h8, List.filter_append, ih, List.nil_append]
      refine (dead_step ?_ h3 ?_).2
      · rintro rfl hm
        have hsent : (48, r) ∈ reqs (l'.sys.sent p) :=
          mem_reqs (((change_grows hc).2.2 p).subset ((reach_sent (log_sys hl)).up p m (by rw [h1]; exact .head _))) hm
        have h9 := hr hsent
        have h10 := hI.q.nod
        rw [h5] at h9
        simp only [upd, if_true] at h9
        rw [h1, reqs, List.filterMap_cons, hm] at h10
        exact (List.nodup_cons.1 h10).1 h9
      · intro j pd hj e1 e2
        obtain ⟨-, h9, h10⟩ := hI.d.pend j pd hj e1
        rw [e2] at h9 h10
        exact h10 (hr0 h9)

theorem answersTo_skip {rp : Bool} {i : Nat} {l l' : List Msg} (h : ∀ m ∈ l, ¬answersInvocation i m) : answersTo rp i (l ++ l') = answersTo rp i l' := by
  induction l with
  | nil => rfl
  | cons m l ih =>
    have h1 := h m (.head _)
    have h2 := ih fun m hm => h m (.tail _ hm)
    cases m <;> simp only [List.cons_append, answersTo, h2]
    all_goals simp only [answersInvocation] at h1; rw [if_neg h1]

/-- The calls of `s` that are under way, and what it is told about CALL `r`, during these actions. -/
theorem run_answers {s r i : Nat} (as : List Action) {l l' : Log} (h : Log.Reach w l) (hrun : l.run w as = some l')
    (hb : l'.sys.bh.length ≤ 2 ^ 53) (hd : l'.sys.dh.length ≤ 2 ^ 53) (hf : Fresh l'.sys s) (hs : Stays l'.sys s)
    (hr1 : (48, r) ∈ reqs (l.sys.sent s)) (hr2 : (48, r) ∉ reqs (l.sys.up s)) :
    ∃ new, l'.inbox s = l.inbox s ++ new ∧
      (∀ pd, l.sys.dealer.pending.get i = some pd → pd.callerID = s → pd.requestID = r →
        AllPassedOn pd.receiveProgress r (answersTo pd.receiveProgress i ((l.taken w as).map (·.2))) (new.filter (answersCall r))) ∧
      (noCall l.sys.dealer s r → new.filter (answersCall r) = []) := by
  induction as generalizing l with
  | nil =>
    cases hrun
    exact ⟨[], (List.append_nil _).symm, fun pd _ _ _ => .nil, fun _ => rfl⟩
  | cons a as ih =>
    obtain ⟨z, ha, hrun⟩ := Option.bind_eq_some_iff.1 hrun
    have hz := h.act a ha
    have hc := log_change ha
    obtain ⟨g1, g2, g3, -⟩ := run_grows as hrun
    have hfz : Fresh z.sys s := List.Nodup.sublist (List.Sublist.filterMap _ (g3 s).sublist) hf
    have hsz : Stays z.sys s := ⟨fun e he => hs.1 e (g1.subset he), fun e he => hs.2 e (g2.subset he)⟩
    have hfl := hfz.back hc
    have hsl := Stays.back hc hsz
    have hx := log_sys h
    have hI := reach_ai hx s hfl
    have hbz := Nat.le_trans g1.length_le hb
    have hdz := Nat.le_trans g2.length_le hd
    have hbl := Nat.le_trans (change_grows hc).1 hbz
    obtain ⟨k1, k2⟩ := asked_once hc hfz hr1 hr2
    obtain ⟨new, e, hlive, hdead⟩ := ih hz hrun k1 k2
    have htk : l.taken w (a :: as) = l.taken w [a] ++ z.taken w as := by
      simp only [Log.taken, ha, List.append_nil]
    cases tstep ha with
    | other h1 h2 h3 =>
      obtain ⟨new', e', hnew⟩ := h3 s
      refine ⟨new' ++ new, by rw [e, e', List.append_assoc], fun pd hp hpc hpr => ?_, fun hno => ?_⟩
      · rw [List.filter_append, fromBroker_answers hnew, List.nil_append, htk, List.map_append, answersTo_skip]
        · exact hlive pd (by rw [h1]; exact hp) hpc hpr
        · intro m hm
          obtain ⟨q, hq, rfl⟩ := List.mem_map.1 hm
          exact fun hi => h2 q hq (answers_dealer hi)
      · rw [List.filter_append, fromBroker_answers hnew, List.nil_append]
        exact hdead fun j pd hj => hno j pd (by rw [← h1]; exact hj)
    | dealer p m rest wo rnd h1 h2 h3 h4 h5 h6 h7 h8 =>
      have hne : p = s → request m ≠ some (48, r) := by
        rintro rfl hm
        exact hr2 (mem_reqs (by rw [h1]; exact .head _) hm)
      have hA := reach_att hx hbl
      have hat : l.sys.dealer.sessions s ≠ none := by
        have hj : s ∈ l.sys.joined := hA.sj s fun e => by rw [e] at hr1; cases hr1
        have h9 := hA.jd s hj hsl
        rw [Dealer.attached, ← (Dealer.hist_sinv (reach_hist hx).2).sess] at h9
        exact fun e => by rw [e] at h9; cases h9
      refine ⟨messagesFor s (dealerOut (Dealer.step w l.sys.dealer (.receive p m wo rnd)).2) ++ new, by rw [e, h8, List.append_assoc], fun pd hp hpc hpr => ?_, fun hno => ?_⟩
      · rw [htk, h4]
        simp only [List.map_cons, List.cons_append, List.nil_append, List.filter_append]
        rw [h7] at hdz
        rcases live_step (reach_hist hx).2 hdz hI.d hne h3 hat hp hpc hpr with ⟨k1, k2, k3⟩ | ⟨k1, ⟨out, k2, k3, k4⟩, k5⟩ | ⟨k1, ⟨out, k2, k3, k4⟩, k5⟩
        · rw [k2, k3]
          exact hlive pd (by rw [h6]; exact k1) hpc hpr
        · rw [k2, k5]
          simp only [List.filter_cons, k3, if_true, List.filter_nil, List.cons_append, List.nil_append]
          exact .cons k4 (hlive pd (by rw [h6]; exact k1) hpc hpr)
        · rw [k2, k5, hdead (by rw [h6]; exact k1)]
          simp only [List.filter_cons, k3, if_true, List.filter_nil, List.append_nil]
          exact .cons k4 .nil
      · obtain ⟨k1, k2⟩ := dead_step hne h3 hno
        rw [List.filter_append, k2, hdead (by rw [h6]; exact k1)]; rfl

/-- **C121** The router takes CALL `r` of client `s` and sends INVOCATION `i` to `c`.  Whatever happens afterwards (`as`), `s` is told about its
call exactly the answers to `i` that the router has taken: none is missing, none is added or repeated, and they are in the order in which the
router took them; a progressive YIELD yields a progressive RESULT if `s` asked for them.  (`s` uses request IDs once and is not removed.) -/
theorem C121_results_passed_on {l0 l1 l2 : Log} (h : Log.Reach w l0) {s r : Nat} {o : GoMap} {u : Str} {a : GoSlice} {k : GoMap} {bin : Bin} {rest : List Msg}
    {wo : List Str} {so : List Nat} {rnd : Nat} (hup : l0.sys.up s = .call r o u a k bin :: rest) (hcall : l0.act w (.route s wo so rnd) = some l1)
    {c i g : Nat} {d : GoMap} {a' : GoSlice} {k' : GoMap} {bin' : Bin} (hinv : l1.inbox c = l0.inbox c ++ [.invocation i g d a' k' bin'])
    {as : List Action} (hrun : l1.run w as = some l2) (hb : l2.sys.bh.length ≤ 2 ^ 53) (hd : l2.sys.dh.length ≤ 2 ^ 53)
    (hf : Fresh l2.sys s) (hs : Stays l2.sys s) :
    AllPassedOn (o.flag (str "receive_progress")) r (answersTo (o.flag (str "receive_progress")) i ((l1.taken w as).map (·.2)))
      ((l2.inbox s).filter (answersCall r)) := by
  have h1 := h.act _ hcall
  have hc := log_change hcall
  obtain ⟨g1, g2, g3, -⟩ := run_grows as hrun
  have hf1 : Fresh l1.sys s := List.Nodup.sublist (List.Sublist.filterMap _ (g3 s).sublist) hf
  have hf0 := hf1.back hc
  have hI := reach_ai (log_sys h) s hf0
  have hin : (48, r) ∈ reqs (l0.sys.up s) := mem_reqs (by rw [hup]; exact .head _) rfl
  have hsent : (48, r) ∈ reqs (l1.sys.sent s) :=
    mem_reqs (((change_grows hc).2.2 s).subset ((reach_sent (log_sys h)).up s (.call r o u a k bin) (by rw [hup]; exact .head _))) rfl
  have hold := answers_asked h hf0 (r := r) fun _ => hin
  cases tstep hcall with
  | other e1 e2 e3 =>
    exfalso
    obtain ⟨new, e4, e5⟩ := e3 c
    rw [hinv] at e4
    have e6 := List.append_cancel_left e4
    exact e5 (.invocation i g d a' k' bin') (by rw [← e6]; exact .head _)
  | dealer p m rest' wo' rnd' e1 e2 e3 e4 e5 e6 e7 e8 =>
    have hpm : p = s ∧ m = .call r o u a k bin := by
      simp only [Log.taken, hcall, List.append_nil, hup, List.take_succ_cons, List.take_zero, List.map_cons, List.map_nil] at e4
      injection e4 with e4 _
      injection e4 with e4 e5
      exact ⟨e4.symm, e5.symm⟩
    obtain ⟨rfl, rfl⟩ := hpm
    rw [e1] at hup
    injection hup with _ hup
    subst hup
    have hout : (48, r) ∉ reqs (l1.sys.up p) := by
      have h10 := hI.q.nod
      rw [e5]
      simp only [upd, if_true]
      rw [e1] at h10
      exact (List.nodup_cons.1 h10).1
    have hinv' : messagesFor c (dealerOut (Dealer.step w l0.sys.dealer (.receive p (.call r o u a k bin) wo' rnd')).2) = [.invocation i g d a' k' bin'] :=
      List.append_cancel_left ((e8 c).symm.trans hinv)
    simp only [Dealer.step, Dealer.receive] at e3 e6 e7 e8 hinv'
    have key : l1.sys.dealer.pending.get i = some ⟨r, p, c, o.flag Dealer.optProgress, o.flag Dealer.optReceiveProgress⟩ ∧
        (l1.inbox p).filter (answersCall r) = [] := by
      rcases Dealer.call_cases w l0.sys.dealer p r o u a k bin wo' rnd' with ⟨-, e⟩ | ⟨e, -⟩ | ⟨x, c', _, j, -, -, -, hst, hout⟩
      · rw [e] at hinv'
        rw [Res.map_ok, dealerOut, messagesFor_one] at hinv'
        split at hinv' <;> cases hinv'
      · rw [e] at e3; exact absurd rfl e3
      · rcases hout with ⟨-, e⟩ | ⟨c'', -, -, e⟩
        · rw [e] at hinv'; cases hinv'
        · obtain ⟨d', a'', k'', bin'', e'⟩ := Dealer.invocationFor_shape l0.sys.dealer x j p o u a k bin c''
          rw [e, e', Res.map_ok, dealerOut, messagesFor_one] at hinv'
          have hcc : c' = c := by
            split at hinv'
            · assumption
            · cases hinv'
          subst hcc
          rw [if_pos rfl] at hinv'
          injection hinv' with hinv' _
          injection hinv' with hij
          subst hij
          refine ⟨?_, ?_⟩
          · rcases hst with ⟨-, -, e9⟩ | ⟨e9, -⟩
            · rw [e6, e9]
              simp only [AMap.get_set, if_true]
            · exact absurd hin (hI.d.inv r _ e9).2
          · rw [e8 p, List.filter_append, hold, e, e', Res.map_ok, dealerOut, messagesFor_one]
            split <;> rfl
    obtain ⟨new, e, hlive, -⟩ := run_answers (i := i) as h1 hrun hb hd hf hs hsent hout
    rw [e, List.filter_append, key.2, List.nil_append]
    exact hlive _ key.1 rfl rfl

/-- What an action does to the messages sent and not yet taken. -/
theorem up_step {l l' : Log} {a : Action} (h : l.act w a = some l') :
    (∃ p data m, a = .send p data m ∧ l'.sys.up = upd l.sys.up p (l.sys.up p ++ [m]) ∧ l'.sys.sent = upd l.sys.sent p (m :: l.sys.sent p) ∧ l.taken w [a] = []) ∨
    (∃ p wo so rnd m rest, a = .route p wo so rnd ∧ l.sys.up p = m :: rest ∧ l'.sys.up = upd l.sys.up p rest ∧ l'.sys.sent = l.sys.sent ∧ l.taken w [a] = [(p, m)]) ∨
    (l'.sys.up = l.sys.up ∧ l'.sys.sent = l.sys.sent ∧ l.taken w [a] = []) := by
  have htk : l.taken w [a] = (match a with
     | .route p _ _ _ => ((l.sys.up p).take 1).map fun m => (p, m)
     | _ => []) := by
    simp only [Log.taken, h, List.append_nil]
    cases a <;> rfl
  obtain ⟨x, got⟩ := l
  obtain ⟨y, h1, rfl⟩ := Option.map_eq_some_iff.1 h
  cases a with
  | join d =>
    simp only [Sys.act] at h1
    split at h1
    · cases h1
    · obtain ⟨hnp, rfl⟩ := onDealer_some h1
      exact .inr (.inr ⟨rfl, rfl, htk⟩)
  | leave s o o' =>
    simp only [Sys.act] at h1
    obtain ⟨hnp, rfl⟩ := onDealer_some h1
    exact .inr (.inr ⟨rfl, rfl, htk⟩)
  | disclose p c =>
    simp only [Sys.act] at h1
    obtain ⟨hnp, rfl⟩ := onDealer_some h1
    exact .inr (.inr ⟨rfl, rfl, htk⟩)
  | send s data m =>
    simp only [Sys.act] at h1
    split at h1
    · split at h1
      · cases h1; exact .inl ⟨s, data, m, rfl, rfl, rfl, htk⟩
      · cases h1
    · cases h1
  | deliver s =>
    simp only [Sys.act] at h1
    split at h1
    · cases h1
    · cases h1
      exact .inr (.inr ⟨rfl, rfl, htk⟩)
  | route p wo so rnd =>
    simp only [Sys.act] at h1
    cases hup : x.up p with
    | nil => rw [hup] at h1; cases h1
    | cons m rest =>
      rw [hup] at h1
      simp only [hup, List.take_succ_cons, List.take_zero, List.map_cons, List.map_nil] at htk
      refine .inr (.inl ⟨p, wo, so, rnd, m, rest, rfl, hup, ?_, ?_, htk⟩) <;> cases m <;> simp only [Sys.handle] at h1 <;>
        first
          | (cases h1; rfl)
          | (obtain ⟨z, hz, rfl⟩ := Option.map_eq_some_iff.1 h1
             obtain ⟨hnp, rfl⟩ := onDealer_some hz
             rfl)

/-- What the router takes was sent; and it takes the messages of each client in the order in which that client sent them. -/
theorem run_taken (as : List Action) {l l' : Log} (h : Log.Reach w l) (hrun : l.run w as = some l') :
    (∀ q ∈ l.taken w as, q.2 ∈ l'.sys.sent q.1) ∧
    ∀ c, ∃ new, l'.outbox c = l.outbox c ++ new ∧ l.sys.up c ++ new = ((l.taken w as).filter (·.1 = c)).map (·.2) ++ l'.sys.up c := by
  induction as generalizing l with
  | nil =>
    cases hrun
    exact ⟨fun _ h => (nomatch h), fun c => ⟨[], (List.append_nil _).symm, List.append_nil _⟩⟩
  | cons a as ih =>
    obtain ⟨z, ha, hrun⟩ := Option.bind_eq_some_iff.1 hrun
    obtain ⟨i1, i2⟩ := ih (h.act a ha) hrun
    have htk : l.taken w (a :: as) = l.taken w [a] ++ z.taken w as := by
      simp only [Log.taken, ha, List.append_nil]
    have hsub := (run_grows as hrun).2.2.1
    have hS := reach_sent (log_sys h)
    have one : (∀ q ∈ l.taken w [a], q.2 ∈ z.sys.sent q.1) ∧
        ∀ c, ∃ new, z.outbox c = l.outbox c ++ new ∧ l.sys.up c ++ new = ((l.taken w [a]).filter (·.1 = c)).map (·.2) ++ z.sys.up c := by
      rcases up_step ha with ⟨p, data, m, -, e1, e2, e3⟩ | ⟨p, _, _, _, m, rest, -, e0, e1, e2, e3⟩ | ⟨e1, e2, e3⟩
      · rw [e3]
        refine ⟨fun _ h => (nomatch h), fun c => ?_⟩
        simp only [Log.outbox, e1, e2, upd]
        split
        · rename_i e; subst e; exact ⟨[m], by rw [List.reverse_cons], rfl⟩
        · exact ⟨[], (List.append_nil _).symm, List.append_nil _⟩
      · rw [e3]
        refine ⟨fun q hq => ?_, fun c => ⟨[], by rw [Log.outbox, e2]; exact (List.append_nil _).symm, ?_⟩⟩
        · cases List.mem_singleton.1 hq
          rw [e2]
          exact hS.up p m (by rw [e0]; exact .head _)
        · rw [e1, List.append_nil]
          simp only [upd]
          by_cases e : c = p
          · subst e; simp [e0]
          · simp [e, Ne.symm e]
      · rw [e3, e1]
        exact ⟨fun _ h => (nomatch h), fun c => ⟨[], by rw [Log.outbox, e2]; exact (List.append_nil _).symm, List.append_nil _⟩⟩
    refine ⟨fun q hq => ?_, fun c => ?_⟩
    · rw [htk] at hq
      rcases List.mem_append.1 hq with hq | hq
      · exact (hsub q.1).subset (one.1 q hq)
      · exact i1 q hq
    · obtain ⟨n1, e1, e2⟩ := one.2 c
      obtain ⟨n2, e3, e4⟩ := i2 c
      refine ⟨n1 ++ n2, by rw [e3, e1, List.append_assoc], ?_⟩
      rw [htk, List.filter_append, List.map_append, ← List.append_assoc, e2, List.append_assoc, e4, List.append_assoc]

theorem answersTo_from {rp : Bool} {i c : Nat} {l : List (Nat × Msg)} (h : ∀ q ∈ l, answersInvocation i q.2 → q.1 = c) :
    answersTo rp i (l.map (·.2)) = answersTo rp i ((l.filter (·.1 = c)).map (·.2)) := by
  induction l with
  | nil => rfl
  | cons q l ih =>
    replace ih := ih fun q hq => h q (.tail _ hq)
    by_cases hq : q.1 = c
    · rw [List.filter_cons, if_pos (by simpa using hq)]
      simp only [List.map_cons]
      generalize q.2 = m
      cases m <;> simp only [answersTo, ih]
    · rw [List.filter_cons, if_neg (by simpa using hq), ← ih]
      exact answersTo_skip (l := [q.2]) fun m hm => by cases List.mem_singleton.1 hm; exact fun ha => hq (h q (.head _) ha)

/-- What the router has taken of a client it took in order, and what is for the dealer was given to it. -/
theorem reach_given {l : Log} (h : Log.Reach w l) (c : Nat) :
    ∃ old, l.outbox c = old ++ l.sys.up c ∧ ∀ m ∈ old, forDealer m → ∃ e ∈ l.sys.dh, ∃ wo rnd, e.op = .receive c m wo rnd := by
  induction h with
  | new => exact ⟨[], rfl, fun _ h => nomatch h⟩
  | act a hl ha ih =>
    rename_i l l'
    obtain ⟨old, e, ih⟩ := ih
    have hsub := (change_hist (log_change ha)).2
    have keep : ∀ m ∈ old, forDealer m → ∃ e ∈ l'.sys.dh, ∃ wo rnd, e.op = .receive c m wo rnd := fun m hm hi => by
      obtain ⟨e, he, h⟩ := ih m hm hi
      exact ⟨e, hsub.subset he, h⟩
    rcases up_step ha with ⟨p, data, m, -, e1, e2, e3⟩ | ⟨p, _, _, _, m, rest, -, e0, e1, e2, e3⟩ | ⟨e1, e2, e3⟩
    · refine ⟨old, ?_, keep⟩
      simp only [Log.outbox, e1, e2, upd] at e ⊢
      split
      · rename_i ep; subst ep; rw [List.reverse_cons, e, List.append_assoc]
      · exact e
    · by_cases ep : c = p
      · subst ep
        refine ⟨old ++ [m], ?_, fun m' hm hi => ?_⟩
        · simp only [Log.outbox, e1, e2, upd, if_true] at e ⊢
          rw [e, e0, List.append_assoc]; rfl
        · rcases List.mem_append.1 hm with hm | hm
          · exact keep m' hm hi
          · cases List.mem_singleton.1 hm
            cases tstep ha with
            | other h1 h2 h3 => exact absurd hi (h2 (c, m) (by rw [e3]; exact .head _))
            | dealer p' m' rest' wo rnd h1 h2 h3 h4 h5 h6 h7 h8 =>
              rw [e3] at h4
              cases h4
              exact ⟨_, by rw [h7]; exact .head _, wo, rnd, rfl⟩
      · refine ⟨old, ?_, keep⟩
        simp only [Log.outbox, e1, e2, upd, if_neg ep] at e ⊢
        exact e
    · refine ⟨old, ?_, keep⟩
      simp only [Log.outbox, e1, e2] at e ⊢
      exact e

/-- **C121** If nobody but `c` answers INVOCATION `i`, and the router had no answer of `c` to it before it sent it, then once the router has taken all that `c` sent and `s` all
that was sent to it, `s` has got what `c` yielded, all of it and in the same order: one RESULT or ERROR for each answer of `c`. -/
theorem C121_caller_gets_what_callee_yields {l0 l1 l2 : Log} (h : Log.Reach w l0) {s r : Nat} {o : GoMap} {u : Str} {a : GoSlice} {k : GoMap} {bin : Bin}
    {rest : List Msg} {wo : List Str} {so : List Nat} {rnd : Nat} (hup : l0.sys.up s = .call r o u a k bin :: rest)
    (hcall : l0.act w (.route s wo so rnd) = some l1)
    {c i g : Nat} {d : GoMap} {a' : GoSlice} {k' : GoMap} {bin' : Bin} (hinv : l1.inbox c = l0.inbox c ++ [.invocation i g d a' k' bin'])
    {as : List Action} (hrun : l1.run w as = some l2) (hb : l2.sys.bh.length ≤ 2 ^ 53) (hd : l2.sys.dh.length ≤ 2 ^ 53)
    (hf : Fresh l2.sys s) (hs : Stays l2.sys s) (honly : ∀ p, ∀ m ∈ l2.sys.sent p, answersInvocation i m → p = c)
    (hbefore : ∀ e ∈ l0.sys.dh, ∀ m wo rnd, e.op = .receive c m wo rnd → ¬answersInvocation i m) (hc : l2.sys.up c = []) (hs' : l2.sys.down s = []) :
    AllPassedOn (o.flag (str "receive_progress")) r (answersTo (o.flag (str "receive_progress")) i (l2.outbox c)) ((l2.got s).filter (answersCall r)) := by
  have key := C121_results_passed_on h hup hcall hinv hrun hb hd hf hs
  have h1 := h.act _ hcall
  obtain ⟨t1, t2⟩ := run_taken as h1 hrun
  obtain ⟨new, e1, e2⟩ := t2 c
  obtain ⟨old, e3, e4⟩ := reach_given h c
  have h3 : ∃ old', l1.outbox c = old' ++ l1.sys.up c ∧ ∀ m ∈ old', ¬answersInvocation i m := by
    rcases up_step hcall with ⟨p, data, m, e, -⟩ | ⟨p, _, _, _, m, rest', e, f1, f2, f3, -⟩ | ⟨-, -, e⟩
    · cases e
    · cases e
      rw [hup] at f1
      cases f1
      have hold : ∀ m ∈ old, ¬answersInvocation i m := fun m hm hi => by
        obtain ⟨e, he, wo, rnd, h⟩ := e4 m hm (answers_dealer hi)
        exact hbefore e he m wo rnd h hi
      by_cases ep : c = s
      · subst ep
        refine ⟨old ++ [.call r o u a k bin], ?_, fun m hm => ?_⟩
        · simp only [Log.outbox, f2, f3, upd, if_true] at e3 ⊢
          rw [e3, hup, List.append_assoc]; rfl
        · rcases List.mem_append.1 hm with hm | hm
          · exact hold m hm
          · cases List.mem_singleton.1 hm; exact id
      · refine ⟨old, ?_, hold⟩
        simp only [Log.outbox, f2, f3, upd, if_neg ep] at e3 ⊢
        exact e3
    · simp only [Log.taken, hcall, List.append_nil, hup] at e
      cases e
  obtain ⟨old', e5, e6⟩ := h3
  rw [answersTo_from (c := c) fun q hq ha => honly q.1 q.2 (t1 q hq) ha] at key
  rw [hc, List.append_nil] at e2
  rw [← e2] at key
  rw [e1, e5, List.append_assoc, answersTo_skip e6]
  rw [Log.inbox, hs', List.append_nil] at key
  exact key

theorem sender_joined {l : Log} (h : Log.Reach w l) (hb : l.sys.bh.length ≤ 2 ^ 53) {p : Nat} {m : Msg} (hm : m ∈ l.sys.sent p) : p ∈ l.sys.joined :=
  (reach_att (log_sys h) hb).sj p (List.ne_nil_of_mem hm)

/-- Client 2 registers "p"; client 1 calls it and wants progressive results. -/
def beforeCall : List Action :=
  three ++ does 2 (.register 1 none (str "p")) ++ [.deliver 2, .send 1 [] (.call 7 (some [(str "receive_progress", .bool true)]) (str "p") none none Bin.none)]

/-- Client 2 yields twice with "progress" and once without; meanwhile client 1 calls again, and client 2 answers that call too. -/
def yields : List Action :=
  [.deliver 2] ++ does 2 (.yield 2 (some [(str "progress", .bool true)]) (some [.str (str "a")]) none Bin.none) ++
  does 1 (.call 8 none (str "p") none none Bin.none) ++
  does 2 (.yield 3 none (some [.str (str "z")]) none Bin.none) ++
  does 2 (.yield 2 (some [(str "progress", .bool true)]) (some [.str (str "b")]) none Bin.none) ++
  does 2 (.yield 2 none (some [.str (str "c")]) none Bin.none) ++ does 2 (.yield 2 none (some [.str (str "d")]) none Bin.none) ++
  [.deliver 1, .deliver 1, .deliver 1, .deliver 1]

def asksRegister : Msg → Bool
  | .register .. => true
  | _ => false

/-- Request, "progress" and first argument of a RESULT. -/
def told : Msg → Nat × Bool × Str
  | .result r d (some (.str x :: _)) _ _ => (r, d.flag (str "progress"), x)
  | _ => (0, false, [])

example : ∃ l0 l1 l2 rest o d, Log.Reach Dealer.noWild l0 ∧ l0.sys.up 1 = .call 7 o (str "p") none none Bin.none :: rest ∧
    o.flag (str "receive_progress") = true ∧
    l0.act Dealer.noWild (.route 1 [] [] 0) = some l1 ∧ l1.inbox 2 = l0.inbox 2 ++ [.invocation 2 1 d none none Bin.none] ∧
    l1.run Dealer.noWild yields = some l2 ∧ l2.sys.bh.length ≤ 2 ^ 53 ∧ l2.sys.dh.length ≤ 2 ^ 53 ∧ Fresh l2.sys 1 ∧ Stays l2.sys 1 ∧
    l2.sys.up 2 = [] ∧ l2.sys.down 1 = [] ∧ (answersTo true 2 (l2.outbox 2)).length = 3 ∧
    ((l2.got 1).filter (answersCall 7)).map told = [(7, true, str "a"), (7, true, str "b"), (7, false, str "c")] ∧
    (l2.got 1).map told = [(7, true, str "a"), (8, false, str "z"), (7, true, str "b"), (7, false, str "c")] ∧
    (∀ p, ∀ m ∈ l2.sys.sent p, answersInvocation 2 m → p = 2) ∧
    ∀ e ∈ l0.sys.dh, ∀ m wo rnd, e.op = .receive 2 m wo rnd → ¬answersInvocation 2 m := by
  have h1 : (Log.new.run Dealer.noWild (beforeCall ++ [.route 1 [] [] 0])).isSome = true := by decide +kernel
  have h2 : (Log.new.run Dealer.noWild (beforeCall ++ [.route 1 [] [] 0] ++ yields)).isSome = true := by decide +kernel
  obtain ⟨d, h3⟩ : ∃ d, (logged (beforeCall ++ [.route 1 [] [] 0])).inbox 2 = (logged beforeCall).inbox 2 ++ [.invocation 2 1 d none none Bin.none] :=
    ⟨_, rfl⟩
  refine ⟨_, _, _, [], some [(str "receive_progress", .bool true)], d, reach_logged beforeCall, rfl, rfl,
    logged_act _ _ h1, h3, logged_split _ _ h2, by decide +kernel, by decide +kernel, by unfold Fresh; decide +kernel, stays_of (by decide +kernel),
    List.isEmpty_iff.1 (by decide +kernel), List.isEmpty_iff.1 (by decide +kernel), by decide +kernel, by decide +kernel, by decide +kernel, ?_, ?_⟩
  · intro p m hm ha
    have hj := sender_joined (reach_logged _) (by decide +kernel) hm
    have hj' : (logged (beforeCall ++ [.route 1 [] [] 0] ++ yields)).sys.joined = [3, 2, 1] := by decide +kernel
    have hq : ∀ p ∈ [3, 1], ((logged (beforeCall ++ [.route 1 [] [] 0] ++ yields)).sys.sent p).all (fun m => (glance m).1 = 48) = true := by decide +kernel
    rw [hj'] at hj
    by_cases hp : p = 2
    · exact hp
    · have h4 := List.all_eq_true.1 (hq p (by simp at hj ⊢; omega)) m hm
      cases m <;> simp [glance] at h4 <;> cases ha
  · intro e he m wo rnd hop
    have hq : (logged beforeCall).sys.dh.all (fun e => match e.op with | .receive _ m _ _ => asksRegister m | _ => true) = true := by decide +kernel
    have h4 := List.all_eq_true.1 hq e he
    rw [hop] at h4
    cases m <;> simp [asksRegister] at h4 <;> exact id

end Wamp.System
