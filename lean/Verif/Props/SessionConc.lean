import Verif.Props.Session
/-!
# C45, C46: concurrent calls on a client session
-/
namespace Wamp.Session

/-! ### Accounting -/

/-- 1 if the operation removed an entry under `k` from table `t`. -/
def Done.removed (t : Tab) (k : Nat) : Done → Nat
  | .delete t' k' (some _) => if t' = t ∧ k' = k then 1 else 0
  | .loadAndDelete t' k' (some _) => if t' = t ∧ k' = k then 1 else 0
  | _ => 0
/-- 1 if the operation stored under `k` in table `t`. -/
def Done.stored (t : Tab) (k : Nat) : Done → Nat
  | .store t' k' _ => if t' = t ∧ k' = k then 1 else 0
  | _ => 0
/-- Entries removed by a call so far. -/
def Thread.removals (t : Tab) (k : Nat) (th : Thread) : Nat := (th.done.map (Done.removed t k)).sum
/-- Entries stored by a call so far. -/
def Thread.stores (t : Tab) (k : Nat) (th : Thread) : Nat := (th.done.map (Done.stored t k)).sum
/-- 1 if there is an entry. -/
def present (s : State) (t : Tab) (k : Nat) : Nat := if (s t k).isSome then 1 else 0

/-- The program stores at most `n` times under `k` in `t`. -/
def AtMost (t : Tab) (k : Nat) : Nat → Prog Bool → Prop
  | _, .ret _ => True
  | n, .load _ _ c => ∀ v, AtMost t k n (c v)
  | n, .store t' k' _ c => (t' = t ∧ k' = k ∧ ∃ m, n = m + 1 ∧ AtMost t k m c) ∨ (¬(t' = t ∧ k' = k) ∧ AtMost t k n c)
  | n, .delete _ _ c => AtMost t k n c
  | n, .loadAndDelete _ _ c => ∀ v, AtMost t k n (c v)

/-- The program cannot succeed without finding and removing the entry under `k` in `t` in one atomic operation. -/
def Needs (t : Tab) (k : Nat) : Prog Bool → Prop
  | .ret b => b = false
  | .load _ _ c => ∀ v, Needs t k (c v)
  | .store _ _ _ c => Needs t k c
  | .delete _ _ c => Needs t k c
  | .loadAndDelete t' k' c => Needs t k (c none) ∧ ∀ v, (t' = t ∧ k' = k) ∨ Needs t k (c (some v))

theorem put_get (s : State) (t t' : Tab) (m : FMap Nat Nat) (k : Nat) :
    (s.put t m) t' k = if t' = t then m k else s t' k := by
  simp only [put_apply]; split <;> rfl

theorem micro_balance {s s' : State} {p p' : Prog Bool} {d : Done} (h : Micro s p s' p' d) (t : Tab) (k : Nat) :
    d.removed t k + present s' t k ≤ d.stored t k + present s t k := by
  cases h with
  | load t' k' c => simp [Done.removed, Done.stored]
  | store t' k' v c =>
    simp only [Done.removed, Done.stored, present, put_get]
    by_cases h1 : t' = t
    · subst h1
      by_cases h2 : k' = k
      · subst h2; simp
      · have : (s t').set k' v k = s t' k := FMap.set_other _ _ (Ne.symm h2)
        simp [this]
    · simp [Ne.symm h1]
  | delete t' k' c =>
    simp only [Done.stored, present, put_get]
    by_cases h1 : t' = t
    · subst h1
      by_cases h2 : k' = k
      · subst h2
        have : (s t').del k' k' = none := FMap.del_same _ _
        cases h : s t' k' <;> simp [Done.removed, this]
      · have : (s t').del k' k = s t' k := FMap.del_other _ (Ne.symm h2)
        cases h : s t' k' <;> simp [Done.removed, this, h2]
    · cases h : s t' k' <;> simp [Done.removed, Ne.symm h1, h1]
  | loadAndDelete t' k' c =>
    simp only [Done.stored, present, put_get]
    by_cases h1 : t' = t
    · subst h1
      by_cases h2 : k' = k
      · subst h2
        have : (s t').del k' k' = none := FMap.del_same _ _
        cases h : s t' k' <;> simp [Done.removed, this]
      · have : (s t').del k' k = s t' k := FMap.del_other _ (Ne.symm h2)
        cases h : s t' k' <;> simp [Done.removed, this, h2]
    · cases h : s t' k' <;> simp [Done.removed, Ne.symm h1, h1]

/-- Removals never exceed stores. -/
theorem reach_balance {c : Cfg} (h : Reach c) (t : Tab) (k : Nat) :
    (c.calls.map (Thread.removals t k)).sum + present c.tabs t k ≤ (c.calls.map (Thread.stores t k)).sum := by
  induction h with
  | init => simp [present, Session.init, FMap.empty]
  | step c c' _ hs ih =>
    cases hs with
    | start s calls op => simpa [Thread.removals, Thread.stores] using ih
    | micro s s' pre th post rest d hm =>
      have hb := micro_balance hm t k
      simp only [List.map_append, List.map_cons, List.sum_append, List.sum_cons, Thread.removals, Thread.stores] at ih ⊢
      omega

theorem micro_atMost {s s' : State} {p p' : Prog Bool} {d : Done} (h : Micro s p s' p' d) (t : Tab) (k n : Nat)
    (ha : AtMost t k n p) : ∃ m, d.stored t k + m ≤ n ∧ AtMost t k m p' := by
  cases h with
  | load t' k' c => exact ⟨n, by simp [Done.stored], ha _⟩
  | store t' k' v c =>
    rcases ha with ⟨rfl, rfl, m, rfl, hm⟩ | ⟨hne, hm⟩
    · exact ⟨m, by simp [Done.stored]; omega, hm⟩
    · exact ⟨n, by simp [Done.stored, hne], hm⟩
  | delete t' k' c => exact ⟨n, by simp [Done.stored], ha⟩
  | loadAndDelete t' k' c => exact ⟨n, by simp [Done.stored], ha _⟩

theorem micro_needs {s s' : State} {p p' : Prog Bool} {d : Done} (h : Micro s p s' p' d) (t : Tab) (k : Nat)
    (ha : Needs t k p) : d.removed t k = 1 ∨ Needs t k p' := by
  cases h with
  | load t' k' c => exact .inr (ha _)
  | store t' k' v c => exact .inr ha
  | delete t' k' c => exact .inr ha
  | loadAndDelete t' k' c =>
    cases hf : s t' k' with
    | none => exact .inr ha.1
    | some v =>
      rcases ha.2 v with h | h
      · exact .inl (by simp [Done.removed, h])
      · exact .inr h

theorem reach_threads {P : Thread → Prop} (h0 : ∀ op, P ⟨op, op.prog, []⟩)
    (h1 : ∀ s s' th rest d, Micro s th.rest s' rest d → P th → P ⟨th.op, rest, d :: th.done⟩)
    {c : Cfg} (h : Reach c) : ∀ th ∈ c.calls, P th := by
  induction h with
  | init => simp
  | step c c' _ hs ih =>
    cases hs with
    | start s calls op =>
      intro th hth
      simp only [List.mem_append, List.mem_singleton] at hth
      rcases hth with hth | rfl
      · exact ih _ hth
      · exact h0 op
    | micro s s' pre th post rest d hm =>
      intro th' hth
      simp only [List.mem_append, List.mem_cons] at hth
      rcases hth with hth | rfl | hth
      · exact ih _ (by simp [hth])
      · exact h1 _ _ _ _ _ hm (ih _ (by simp))
      · exact ih _ (by simp [hth])

theorem countP_le_sum {α : Type} (p : α → Bool) (f : α → Nat) : ∀ (l : List α), (∀ a ∈ l, p a = true → 1 ≤ f a) →
    l.countP p ≤ (l.map f).sum
  | [], _ => by simp
  | a :: l, h => by
    have := countP_le_sum p f l fun b hb => h b (List.mem_cons_of_mem _ hb)
    simp only [List.countP_cons, List.map_cons, List.sum_cons]
    split
    · have := h a (by simp) (by assumption); omega
    · omega

theorem sum_le_countP {α : Type} (p : α → Bool) (f : α → Nat) :
    ∀ (l : List α), (∀ a ∈ l, f a ≤ if p a then 1 else 0) → (l.map f).sum ≤ l.countP p
  | [], _ => by simp
  | a :: l, h => by
    have := sum_le_countP p f l fun b hb => h b (List.mem_cons_of_mem _ hb)
    have := h a (by simp)
    simp only [List.countP_cons, List.map_cons, List.sum_cons]
    omega

/-- Stores into `(t,k)` come only from `req` calls, at most one each. -/
theorem stores_le {req : Event → Bool} {t : Tab} {k : Nat}
    (hreq : ∀ op, AtMost t k (if req (Thread.started ⟨op, op.prog, []⟩) then 1 else 0) op.prog) {c : Cfg} (h : Reach c) :
    (c.calls.map (Thread.stores t k)).sum ≤ c.calls.countP fun th => req th.started := by
  apply sum_le_countP
  have := reach_threads (P := fun th => ∃ n, th.stores t k + n ≤ (if req th.started then 1 else 0) ∧ AtMost t k n th.rest)
    (fun op => ⟨_, by simp [Thread.stores], hreq op⟩)
    (by
      rintro s s' th rest d hm ⟨n, hn, ha⟩
      obtain ⟨m, hm, ha⟩ := micro_atMost hm t k n ha
      refine ⟨m, ?_, ha⟩
      have : Thread.started ⟨th.op, rest, d :: th.done⟩ = th.started := rfl
      rw [this]
      simp only [Thread.stores, List.map_cons, List.sum_cons] at hn ⊢
      omega) h
  intro th hth
  obtain ⟨n, hn, -⟩ := this th hth
  omega

/-- If every `req` stores at most once into `(t,k)`, nothing else stores there, and every successful `ans` removes from there, then
there are at most as many successful `ans` as `req`, under every schedule. -/
theorem answers_le {req ans : Event → Bool} {t : Tab} {k : Nat}
    (hreq : ∀ op, AtMost t k (if req (Thread.started ⟨op, op.prog, []⟩) then 1 else 0) op.prog)
    (hans : ∀ op, ans ⟨op, true⟩ = true → Needs t k op.prog) (hfail : ∀ op, ans ⟨op, false⟩ = false)
    {c : Cfg} (h : Reach c) :
    c.calls.countP (fun th => ans th.event) ≤ c.calls.countP (fun th => req th.started) := by
  have h1 := reach_threads (P := fun th => ans ⟨th.op, true⟩ = true → 1 ≤ th.removals t k ∨ Needs t k th.rest)
    (fun op ho => .inr (hans op ho))
    (by
      intro s s' th rest d hm ih ho
      rcases ih ho with h | h
      · exact .inl (by simp only [Thread.removals, List.map_cons, List.sum_cons] at h ⊢; omega)
      · rcases micro_needs hm t k h with h | h
        · exact .inl (by simp only [Thread.removals, List.map_cons, List.sum_cons]; omega)
        · exact .inr h) h
  have h2 : c.calls.countP (fun th => ans th.event) ≤ (c.calls.map (Thread.removals t k)).sum := by
    apply countP_le_sum
    intro th hth ha
    rcases th with ⟨op, rest, done⟩
    cases rest with
    | ret b =>
      cases b
      · simp [Thread.event, Thread.succeeded, hfail] at ha
      · rcases h1 _ hth ha with h | h
        · exact h
        · cases h
    | _ => simp [Thread.event, Thread.succeeded, hfail] at ha
  have h3 := reach_balance h t k
  have h4 := stores_le hreq h
  omega

/-! ### What the calls do -/

/-- The requests that wait in a table. -/
def reqOf : Tab → Nat → Event → Bool
  | .call => callSent
  | .register => registerSent
  | .unregister => unregisterSent
  | .publish => publishSent
  | .subscribe => subscribeSent
  | .unsubscribe => unsubscribeSent
  | _ => fun _ _ => false

theorem req_stores (n : Nat) (t : Tab) (ht : errorTab n = some t) (k : Nat) (op : Op) :
    AtMost t k (if reqOf t k (Thread.started ⟨op, op.prog, []⟩) then 1 else 0) op.prog := by
  have hr := errorTab_regs n
  rw [ht] at hr
  simp only [ne_eq, Option.some.injEq] at hr
  obtain ⟨hr1, hr2, hr3⟩ := hr
  have tail : ∀ t' r v, AtMost t k (if t' = t ∧ r = k then 1 else 0) (.store t' r v (.ret true)) := by
    intro t' r v
    by_cases h : t' = t ∧ r = k
    · simp [AtMost, h]
    · simp [AtMost, h]
  rcases op with ⟨d, m⟩ | m
  · cases d with
    | err => exact trivial
    | panic => exact trivial
    | ok b =>
      cases m
      case call r _ _ _ _ _ =>
        have h := tail .call r 0
        cases t <;> simp_all [Op.prog, Op.prog.go, send, reqOf, Thread.started, callSent, registerSent, unregisterSent, publishSent, subscribeSent, unsubscribeSent]
      case register r _ _ =>
        have h := tail .register r 0
        cases t <;> simp_all [Op.prog, Op.prog.go, send, reqOf, Thread.started, callSent, registerSent, unregisterSent, publishSent, subscribeSent, unsubscribeSent]
      case unregister r g =>
        have h := tail .unregister r g
        cases t <;> simp_all [Op.prog, Op.prog.go, send, reqOf, Thread.started, callSent, registerSent, unregisterSent, publishSent, subscribeSent, unsubscribeSent]
      case subscribe r _ _ =>
        have h := tail .subscribe r 0
        cases t <;> simp_all [Op.prog, Op.prog.go, send, reqOf, Thread.started, callSent, registerSent, unregisterSent, publishSent, subscribeSent, unsubscribeSent]
      case publish r o _ _ _ =>
        have h := tail .publish r 0
        by_cases ho : o.flag (str "acknowledge")
        · cases t <;> simp_all [Op.prog, Op.prog.go, send, reqOf, Thread.started, callSent, registerSent, unregisterSent, publishSent, subscribeSent, unsubscribeSent]
        · simp [Op.prog, Op.prog.go, send, ho, AtMost]
      case unsubscribe r g =>
        intro v
        cases v with
        | none => exact trivial
        | some x =>
          have h := tail .unsubscribe r g
          cases t <;> simp_all [Op.prog.go, reqOf, Thread.started, callSent, registerSent, unregisterSent, publishSent, subscribeSent, unsubscribeSent]
      case yield r o _ _ _ =>
        by_cases ho : o.flag optProgress <;> simp [Op.prog, Op.prog.go, send, ho, AtMost]
      case error t' r _ _ _ _ =>
        by_cases ho : t' = 68 <;> simp [Op.prog, Op.prog.go, send, ho, AtMost]
      all_goals exact trivial
  · have noev : ∀ b, reqOf t k ⟨.recv m, b⟩ = false := by
      intro b; cases t <;> simp [reqOf, callSent, registerSent, unregisterSent, publishSent, subscribeSent, unsubscribeSent]
    simp only [Thread.started, noev]
    cases m
    case result r d _ _ _ =>
      intro v; cases v
      · exact trivial
      · by_cases ho : d.flag optProgress <;> simp [Op.prog.go, ho, AtMost]
    case registered r g => intro v; cases v <;> simp [Op.prog.go, AtMost, Ne.symm hr1]
    case unregistered r => intro v; cases v <;> simp only [Op.prog.go, AtMost]; intro v; cases v <;> simp [Op.prog.go, AtMost]
    case unsubscribed r => intro v; cases v <;> simp only [Op.prog.go, AtMost]; intro v; cases v <;> simp [Op.prog.go, AtMost]
    case invocation => intro v; cases v <;> simp [Op.prog.go, AtMost, Ne.symm hr3]
    case published => intro v; cases v <;> simp [Op.prog.go, AtMost]
    case subscribed => intro v; cases v <;> simp [Op.prog.go, AtMost, Ne.symm hr2]
    case event => intro v; cases v <;> simp [Op.prog.go, AtMost]
    case error t' r _ _ _ _ =>
      simp only [Op.prog, recv]
      cases errorTab t'
      · exact trivial
      · intro v; cases v <;> simp [Op.prog.go, AtMost]
    all_goals exact trivial

theorem error_needs (n : Nat) (t : Tab) (ht : errorTab n = some t) (k : Nat) (op : Op) (h : errorGot n k ⟨op, true⟩ = true) :
    Needs t k op.prog := by
  rcases op with ⟨d, m⟩ | m
  · cases m <;> simp [errorGot] at h
  · cases m <;> simp [errorGot] at h
    obtain ⟨rfl, rfl⟩ := h
    simp [Op.prog, recv, ht, Op.prog.go, Needs]

/-- **C45** Under every schedule of concurrent calls: the REGISTERED and REGISTER-ERROR answers accepted for a request ID are at
most as many as the REGISTERs sent with it; the PUBLISHED and PUBLISH-ERROR answers at most as many as the acknowledged PUBLISHes. -/
theorem C45_one_answer_concurrently {c : Cfg} (h : Reach c) (k : Nat) :
    c.calls.countP (fun th => registerSettled k th.event) ≤ c.calls.countP (fun th => registerSent k th.started) ∧
    c.calls.countP (fun th => publishSettled k th.event) ≤ c.calls.countP (fun th => publishSent k th.started) := by
  constructor
  · refine answers_le (t := .register) (k := k) (req_stores 64 .register rfl k) ?_ ?_ h
    · intro op ho
      rcases op with ⟨d, m⟩ | m
      · cases m <;> simp [registerSettled, registeredGot, errorGot] at ho
      · simp only [registerSettled, Bool.or_eq_true] at ho
        rcases ho with ho | ho
        · cases m <;> simp [registeredGot] at ho
          subst ho
          simp [Op.prog, recv, Op.prog.go, Needs]
        · exact error_needs 64 .register rfl k _ ho
    · intro op
      simp [registerSettled, registeredGot, errorGot]
  · refine answers_le (t := .publish) (k := k) (req_stores 16 .publish rfl k) ?_ ?_ h
    · intro op ho
      rcases op with ⟨d, m⟩ | m
      · cases m <;> simp [publishSettled, publishedGot, errorGot] at ho
      · simp only [publishSettled, Bool.or_eq_true] at ho
        rcases ho with ho | ho
        · cases m <;> simp [publishedGot] at ho
          subst ho
          simp [Op.prog, recv, Op.prog.go, Needs]
        · exact error_needs 16 .publish rfl k _ ho
    · intro op
      simp [publishSettled, publishedGot, errorGot]

/-- Two REGISTERED for the same request received concurrently with the REGISTER: one is accepted, the other is not. -/
example : ∃ c, Reach c ∧ c.calls.countP (fun th => registerSent 1 th.started) = 1 ∧
    c.calls.countP (fun th => registerSettled 1 th.event) = 1 ∧
    c.calls.countP (fun th => registeredGot 1 ⟨th.op, true⟩) = 2 := by
  let o1 : Op := .send (.ok []) (.register 1 none [])
  let o2 : Op := .recv (.registered 1 5)
  refine ⟨_, .step _ _ (.step _ _ (.step _ _ (.step _ _ (.step _ _ (.step _ _ (.step _ _ .init
    (.start _ _ o1)) (.start _ _ o2)) (.start _ _ o2))
    (.micro _ _ [] ⟨o1, o1.prog, []⟩ [⟨o2, o2.prog, []⟩, ⟨o2, o2.prog, []⟩] _ _ (.store _ _ _ _ _)))
    (.micro _ _ [_] ⟨o2, o2.prog, []⟩ [⟨o2, o2.prog, []⟩] _ _ (.loadAndDelete _ _ _ _)))
    (.micro _ _ [_, _] ⟨o2, o2.prog, []⟩ [] _ _ (.loadAndDelete _ _ _ _)))
    (.micro _ _ [_] ⟨o2, .store .registrations 5 0 (.ret true), _⟩ [_] _ _ (.store _ _ _ _ _)), ?_⟩
  exact ⟨rfl, rfl, rfl⟩

/-! ### C46: CALL -/

/-- **C46 is false** under arbitrary schedules: one CALL is sent, and two final RESULTs received concurrently are both accepted,
because looking up the request and removing it are two separate steps. -/
theorem C46_two_results : ∃ c, Reach c ∧ c.calls.countP (fun th => callSent 1 th.started) = 1 ∧
    c.calls.countP (fun th => callSettled 1 th.event) = 2 := by
  let o1 : Op := .send (.ok []) (.call 1 none [] none none .none)
  let o2 : Op := .recv (.result 1 none none none .none)
  refine ⟨_, .step _ _ (.step _ _ (.step _ _ (.step _ _ (.step _ _ (.step _ _ (.step _ _ (.step _ _ .init
    (.start _ _ o1)) (.start _ _ o2)) (.start _ _ o2))
    (.micro _ _ [] ⟨o1, o1.prog, []⟩ [⟨o2, o2.prog, []⟩, ⟨o2, o2.prog, []⟩] _ _ (.store _ _ _ _ _)))
    (.micro _ _ [_] ⟨o2, o2.prog, []⟩ [⟨o2, o2.prog, []⟩] _ _ (.load _ _ _ _)))
    (.micro _ _ [_, _] ⟨o2, o2.prog, []⟩ [] _ _ (.load _ _ _ _)))
    (.micro _ _ [_] ⟨o2, .delete .call 1 (.ret true), _⟩ [_] _ _ (.delete _ _ _ _)))
    (.micro _ _ [_, _] ⟨o2, .delete .call 1 (.ret true), _⟩ [] _ _ (.delete _ _ _ _)), ?_⟩
  exact ⟨rfl, rfl⟩

/-- The program cannot succeed without finding an entry under `k` in `t`. -/
def Sees (t : Tab) (k : Nat) : Prog Bool → Prop
  | .ret b => b = false
  | .load t' k' c => Sees t k (c none) ∧ ∀ v, (t' = t ∧ k' = k) ∨ Sees t k (c (some v))
  | .store _ _ _ c => Sees t k c
  | .delete _ _ c => Sees t k c
  | .loadAndDelete t' k' c => Sees t k (c none) ∧ ∀ v, (t' = t ∧ k' = k) ∨ Sees t k (c (some v))

theorem micro_stored_mono {s s' : State} {pre post : List Thread} {th : Thread} {rest : Prog Bool} {d : Done}
    (_ : Micro s th.rest s' rest d) (t : Tab) (k : Nat) :
    ((pre ++ th :: post).map (Thread.stores t k)).sum ≤
      ((pre ++ ⟨th.op, rest, d :: th.done⟩ :: post).map (Thread.stores t k)).sum := by
  simp only [List.map_append, List.map_cons, List.sum_append, List.sum_cons, Thread.stores]
  omega

theorem reach_sees {ans : Event → Bool} {t : Tab} {k : Nat} (hans : ∀ op, ans ⟨op, true⟩ = true → Sees t k op.prog)
    {c : Cfg} (h : Reach c) : ∀ th ∈ c.calls, ans ⟨th.op, true⟩ = true →
      1 ≤ (c.calls.map (Thread.stores t k)).sum ∨ Sees t k th.rest := by
  induction h with
  | init => simp
  | step c c' hr hs ih =>
    have hb := reach_balance hr t k
    cases hs with
    | start s calls op =>
      intro th hth ho
      have e : ((calls ++ [(⟨op, op.prog, []⟩ : Thread)]).map (Thread.stores t k)).sum = (calls.map (Thread.stores t k)).sum := by
        simp [Thread.stores]
      simp only [e]
      simp only [List.mem_append, List.mem_singleton] at hth
      rcases hth with hth | rfl
      · exact ih _ hth ho
      · exact .inr (hans op ho)
    | micro s s' pre th post rest d hm =>
      have hmono := micro_stored_mono (pre := pre) (post := post) hm t k
      have old : ∀ th' ∈ pre ++ th :: post, ans ⟨th'.op, true⟩ = true →
          1 ≤ ((pre ++ ⟨th.op, rest, d :: th.done⟩ :: post).map (Thread.stores t k)).sum ∨ Sees t k th'.rest := by
        intro th' hth ho
        rcases ih th' hth ho with h | h
        · exact .inl (Nat.le_trans h hmono)
        · exact .inr h
      intro th' hth ho
      simp only [List.mem_append, List.mem_cons] at hth
      rcases hth with hth | rfl | hth
      · exact old th' (by simp [hth]) ho
      · rcases old th (by simp) ho with h | h
        · exact .inl h
        · have found : ∀ t' k' v, s t' k' = some v → t' = t ∧ k' = k →
              1 ≤ ((pre ++ ⟨th.op, rest, d :: th.done⟩ :: post).map (Thread.stores t k)).sum := by
            rintro t' k' v hv ⟨rfl, rfl⟩
            have : present s t' k' = 1 := by simp [present, hv]
            simp only at hb
            omega
          rcases th with ⟨op, p, done⟩
          simp only at hm h
          cases hm with
          | load t' k' c =>
            cases hf : s t' k' with
            | none => exact .inr h.1
            | some v =>
              rcases h.2 v with h | h
              · exact .inl (by have := found _ _ _ hf h; rw [hf] at this; exact this)
              · exact .inr h
          | store t' k' v c => exact .inr h
          | delete t' k' c => exact .inr h
          | loadAndDelete t' k' c =>
            cases hf : s t' k' with
            | none => exact .inr h.1
            | some v =>
              rcases h.2 v with h | h
              · exact .inl (by have := found _ _ _ hf h; rw [hf] at this; exact this)
              · exact .inr h
      · exact old th' (by simp [hth]) ho

theorem oneReader_reach {c : Cfg} (h : ReachOneReader c) : Reach c ∧ OneReader c := by
  induction h with
  | init => exact ⟨.init, by simp [OneReader]⟩
  | step c c' _ hs ho ih => exact ⟨.step c c' ih.1 hs, ho⟩

/-- Operations of a send never remove from the CALL table. -/
def Keeps (t : Tab) (k : Nat) : Prog Bool → Prop
  | .ret _ => True
  | .load _ _ c => ∀ v, Keeps t k (c v)
  | .store _ _ _ c => Keeps t k c
  | .delete t' _ c => t' ≠ t ∧ Keeps t k c
  | .loadAndDelete t' _ c => t' ≠ t ∧ ∀ v, Keeps t k (c v)

theorem send_keeps (d : Res Str) (m : Msg) (k : Nat) : Keeps .call k (Op.send d m).prog := by
  cases d with
  | err => exact trivial
  | panic => exact trivial
  | ok b =>
    cases m
    case unsubscribe r g => intro v; cases v <;> simp [Op.prog.go, Keeps]
    case yield r o _ _ _ => by_cases ho : o.flag optProgress <;> simp [Op.prog, Op.prog.go, send, ho, Keeps]
    case publish r o _ _ _ => by_cases ho : o.flag (str "acknowledge") <;> simp [Op.prog, Op.prog.go, send, ho, Keeps]
    case error t' r _ _ _ _ => by_cases ho : t' = 68 <;> simp [Op.prog, Op.prog.go, send, ho, Keeps]
    all_goals simp [Op.prog, Op.prog.go, send, Keeps]

theorem micro_keeps {s s' : State} {p p' : Prog Bool} {d : Done} (h : Micro s p s' p' d) (t : Tab) (k : Nat)
    (hk : Keeps t k p) : Keeps t k p' ∧ ((s t k).isSome = true → (s' t k).isSome = true) := by
  cases h with
  | load t' k' c => exact ⟨hk _, id⟩
  | store t' k' v c =>
    refine ⟨hk, fun hs => ?_⟩
    simp only [put_get]; split
    · rename_i e; subst e; simp only [FMap.set_apply]; split
      · rfl
      · exact hs
    · exact hs
  | delete t' k' c => exact ⟨hk.2, fun hs => by simp only [put_get, if_neg (Ne.symm hk.1)]; exact hs⟩
  | loadAndDelete t' k' c => exact ⟨hk.2 _, fun hs => by simp only [put_get, if_neg (Ne.symm hk.1)]; exact hs⟩

/-- The state of a thread that delivers a final answer to CALL `k`. -/
inductive CallThread (s : State) (k : Nat) (th : Thread) : Prop where
  | removed : 1 ≤ th.removals .call k → CallThread s k th
  | needs : Needs .call k th.rest → CallThread s k th
  | before (c) : th.rest = .load .call k c → Needs .call k (c none) → (∀ v, c (some v) = .delete .call k (.ret true)) →
      CallThread s k th
  | between : th.rest = .delete .call k (.ret true) → th.receiving = true → (s .call k).isSome = true → CallThread s k th

theorem one_of_two {pre post : List Thread} {a b : Thread} (h : OneReader ⟨s, pre ++ a :: post⟩) (ha : a.receiving = true)
    (hb : b ∈ pre ∨ b ∈ post) : b.receiving = false := by
  cases hbr : b.receiving with
  | false => rfl
  | true =>
    exfalso
    simp only [OneReader, List.filter_append, List.filter_cons, ha, if_true, List.length_append, List.length_cons] at h
    rcases hb with hb | hb
    · have : b ∈ pre.filter Thread.receiving := List.mem_filter.2 ⟨hb, hbr⟩
      have := List.length_pos_of_mem this
      omega
    · have : b ∈ post.filter Thread.receiving := List.mem_filter.2 ⟨hb, hbr⟩
      have := List.length_pos_of_mem this
      omega

theorem oneReader_call {c : Cfg} (h : ReachOneReader c) (k : Nat) :
    (∀ th ∈ c.calls, (∀ d m, th.op = .send d m → Keeps .call k th.rest)) ∧
    (∀ th ∈ c.calls, callSettled k ⟨th.op, true⟩ = true → CallThread c.tabs k th) := by
  refine ⟨reach_threads (P := fun th => ∀ d m, th.op = .send d m → Keeps .call k th.rest) ?_ ?_ (oneReader_reach h).1, ?_⟩
  · rintro op d m rfl; exact send_keeps d m k
  · intro s s' th rest d hm ih d' m ho
    exact (micro_keeps hm .call k (ih d' m ho)).1
  induction h with
  | init => simp
  | step c c' hr hs h1 ih =>
    have hkeep := reach_threads (P := fun th => ∀ d m, th.op = .send d m → Keeps .call k th.rest)
      (by rintro op d m rfl; exact send_keeps d m k)
      (fun s s' th rest d hm ih d' m ho => (micro_keeps hm .call k (ih d' m ho)).1) (oneReader_reach hr).1
    have hone := (oneReader_reach hr).2
    cases hs with
    | start s calls op =>
      intro th hth ho
      simp only [List.mem_append, List.mem_singleton] at hth
      rcases hth with hth | rfl
      · exact ih _ hth ho
      · rcases op with ⟨d, m⟩ | m
        · cases m <;> simp [callSettled, resultGot, errorGot] at ho
        · simp only [callSettled, Bool.or_eq_true] at ho
          rcases ho with ho | ho
          · cases m <;> simp [resultGot] at ho
            rename_i r d _ _ _
            obtain ⟨rfl, hp⟩ := ho
            refine .before _ rfl rfl ?_
            intro v
            have : d.flag optProgress = false := hp
            simp [Op.prog.go, this]
          · exact .needs (error_needs 48 .call rfl k _ ho)
    | micro s s' pre th post rest d hm =>
      -- a thread other than the one that moved
      have other : ∀ th', (th' ∈ pre ∨ th' ∈ post) → callSettled k ⟨th'.op, true⟩ = true → CallThread s' k th' := by
        intro th' hth ho
        have hmem : th' ∈ pre ++ th :: post := by rcases hth with h | h <;> simp [h]
        rcases ih th' hmem ho with h | h | ⟨c, h1, h2, h3⟩ | ⟨h1, h2, h3⟩
        · exact .removed h
        · exact .needs h
        · exact .before c h1 h2 h3
        · refine .between h1 h2 ?_
          cases hop : th.op with
          | send d' m =>
            exact (micro_keeps hm .call k (hkeep th (by simp) d' m hop)).2 h3
          | recv m =>
            have hrec : th.receiving = true := by
              rcases th with ⟨op, p, done⟩
              simp only at hop hm
              subst hop
              cases hm <;> rfl
            have := one_of_two (s := s) hone hrec hth
            rw [this] at h2; cases h2
      intro th' hth ho
      simp only [List.mem_append, List.mem_cons] at hth
      rcases hth with hth | rfl | hth
      · exact other th' (.inl hth) ho
      · rcases ih th (by simp) ho with h | h | ⟨c, h1, h2, h3⟩ | ⟨h1, h2, h3⟩
        · exact .removed (by simp only [Thread.removals, List.map_cons, List.sum_cons] at h ⊢; omega)
        · rcases micro_needs hm .call k h with h | h
          · exact .removed (by simp only [Thread.removals, List.map_cons, List.sum_cons]; omega)
          · exact .needs h
        · rcases th with ⟨op, p, done⟩
          simp only at hm h1 ho
          subst h1
          cases hm
          cases hf : s .call k with
          | none => exact .needs h2
          | some v =>
            refine .between (h3 v) ?_ (by simp [hf])
            simp only [h3 v]
            rcases op with ⟨d, m⟩ | m
            · cases m <;> simp [callSettled, resultGot, errorGot] at ho
            · rfl
        · rcases th with ⟨op, p, done⟩
          simp only at hm h1 h3
          subst h1
          cases hm
          refine .removed ?_
          cases hf : s .call k with
          | none => simp [hf] at h3
          | some v => simp [Thread.removals, Done.removed]
      · exact other th' (.inr hth) ho

/-- **C46** what does hold.  Under every schedule of concurrent calls: ERRORs accepted for a CALL request ID are at most as many as
CALLs sent with it, and no RESULT or ERROR is accepted for a request ID that no CALL used.  When `ReceiveMessage` calls do not
overlap each other (one reader; sends may overlap anything), the final answers (RESULT and ERROR together) are at most as many as
the CALLs.  What is missing is that last bound for overlapping `ReceiveMessage` calls, refuted by `C46_two_results`. -/
theorem C46_one_answer_concurrently_partial (k : Nat) :
    (∀ c, Reach c →
      c.calls.countP (fun th => errorGot 48 k th.event) ≤ c.calls.countP (fun th => callSent k th.started) ∧
      (∀ th ∈ c.calls, callSettled k th.event = true → ∃ th' ∈ c.calls, callSent k th'.started = true)) ∧
    (∀ c, ReachOneReader c →
      c.calls.countP (fun th => callSettled k th.event) ≤ c.calls.countP (fun th => callSent k th.started)) := by
  refine ⟨fun c h => ⟨?_, ?_⟩, fun c h => ?_⟩
  · exact answers_le (t := .call) (k := k) (req_stores 48 .call rfl k) (error_needs 48 .call rfl k)
      (fun op => by simp [errorGot]) h
  · intro th hth ho
    have hs := reach_sees (ans := callSettled k) (t := .call) (k := k) (by
      intro op ho
      rcases op with ⟨d, m⟩ | m
      · cases m <;> simp [callSettled, resultGot, errorGot] at ho
      · cases m <;> simp [callSettled, resultGot, errorGot] at ho
        · obtain ⟨rfl, rfl⟩ := ho
          simp [Op.prog, recv, errorTab, Op.prog.go, Sees]
        · obtain ⟨rfl, hp⟩ := ho
          simp [Op.prog, recv, Op.prog.go, Sees]) h th hth
    rcases th with ⟨op, rest, done⟩
    have hrest : rest = .ret true := by
      cases rest with
      | ret b =>
        cases b
        · simp [Thread.event, Thread.succeeded, callSettled, resultGot, errorGot] at ho
        · rfl
      | _ => simp [Thread.event, Thread.succeeded, callSettled, resultGot, errorGot] at ho
    subst hrest
    rcases hs ho with h1 | h1
    · have h2 := stores_le (req_stores 48 .call rfl k) h
      have : 0 < c.calls.countP (fun th => reqOf .call k th.started) := by omega
      exact List.countP_pos_iff.1 this
    · cases h1
  · have h2 : c.calls.countP (fun th => callSettled k th.event) ≤ (c.calls.map (Thread.removals .call k)).sum := by
      apply countP_le_sum
      intro th hth ho
      rcases th with ⟨op, rest, done⟩
      have hrest : rest = .ret true := by
        cases rest with
        | ret b =>
          cases b
          · simp [Thread.event, Thread.succeeded, callSettled, resultGot, errorGot] at ho
          · rfl
        | _ => simp [Thread.event, Thread.succeeded, callSettled, resultGot, errorGot] at ho
      subst hrest
      rcases (oneReader_call h k).2 _ hth ho with h | h | ⟨c, h1, -, -⟩ | ⟨h1, -, -⟩
      · exact h
      · cases h
      · cases h1
      · cases h1
    have h3 := reach_balance (oneReader_reach h).1 .call k
    have h4 := stores_le (req_stores 48 .call rfl k) (oneReader_reach h).1
    have : c.calls.countP (fun th => reqOf .call k th.started) = c.calls.countP (fun th => callSent k th.started) := rfl
    omega

/-- A CALL overlapping the acceptance of its RESULT: allowed with one reader. -/
example : ∃ c, ReachOneReader c ∧ c.calls.countP (fun th => callSettled 1 th.event) = 1 ∧ c.calls.length = 2 := by
  let o1 : Op := .send (.ok []) (.call 1 none [] none none .none)
  let o2 : Op := .recv (.result 1 none none none .none)
  refine ⟨_, .step _ _ (.step _ _ (.step _ _ (.step _ _ (.step _ _ .init
    (.start _ _ o1) ?_) (.start _ _ o2) ?_)
    (.micro _ _ [] ⟨o1, o1.prog, []⟩ [⟨o2, o2.prog, []⟩] _ _ (.store _ _ _ _ _)) ?_)
    (.micro _ _ [_] ⟨o2, o2.prog, []⟩ [] _ _ (.load _ _ _ _)) ?_)
    (.micro _ _ [_] ⟨o2, .delete .call 1 (.ret true), _⟩ [] _ _ (.delete _ _ _ _)) ?_, rfl, rfl⟩
  all_goals first | exact Nat.le_refl 1 | exact Nat.zero_le 1

end Wamp.Session
