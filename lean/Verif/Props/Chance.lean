import Verif.Lemmas.Chance
import Verif.Spec.Chance
import Verif.Model.PathMatch
import Verif.Props.Broker
import Verif.Props.Dealer
/-!
# Routing does not depend on chance
-/
namespace Wamp.Broker
variable {w : Str → Str → Bool}

/-- What holds of every broker. -/
structure Sane (b : State) : Prop where
  top : ∀ t a, b.byTopic t = some a → (b.heap a).topic = t ∧ a < b.next
  sub : ∀ a, (b.heap a).subscribers.Nodup
  nod : ∀ s m, b.bySession s = some m → m.keys.Nodup

/-- One iteration of the loop in `RemoveSession`, for the topic of the subscription. -/
private def leaveTopic (id : Nat) (b : State) (t : Str) : Res State :=
  match b.byTopic t with
  | none => .panic
  | some p =>
    .ok { b with
      heap := hset b.heap p { b.heap p with subscribers := (b.heap p).subscribers.filter (· ≠ id) }
      byTopic := if ((b.heap p).subscribers.filter (· ≠ id)).isEmpty then b.byTopic.del t else b.byTopic
      tree := if (b.heap p).mtch = matchPrefix then b.tree.del (b.heap p).topic else b.tree
      wc := if (b.heap p).mtch = matchWildcard then b.wc.del t else b.wc }

/-- The loop. -/
private def leaveAll (id : Nat) : State → List Str → Res State
  | b, [] => .ok b
  | b, t :: ts => (leaveTopic id b t).bind fun b => leaveAll id b ts

private theorem removeStep_topic (id : Nat) (b : State) (a : Nat) : removeStep id b a = leaveTopic id b (b.heap a).topic := rfl

private theorem leave_keeps {id : Nat} {b b' : State} {t : Str} (h : leaveTopic id b t = .ok b') :
    (∀ a, (b'.heap a).topic = (b.heap a).topic) ∧ (Sane b → Sane b') ∧ b'.bySession = b.bySession ∧
      ∀ k ∈ b'.wc.keys, k ∈ b.wc.keys := by
  simp only [leaveTopic] at h
  split at h
  · cases h
  · rename_i p hp
    cases h
    have ht : ∀ a, (hset b.heap p { b.heap p with subscribers := (b.heap p).subscribers.filter (· ≠ id) } a).topic = (b.heap a).topic := by
      intro a
      simp only [hset]
      split
      · rename_i e; subst e; rfl
      · rfl
    refine ⟨ht, fun J => ⟨?_, ?_, J.nod⟩, rfl, ?_⟩
    · intro t' a h1
      rw [ht]
      refine J.top t' a ?_
      revert h1
      simp only []
      split
      · simp only [FMap.del]
        split <;> simp
      · exact fun h => h
    · intro a
      simp only [hset]
      split
      · exact (J.sub p).filter _
      · exact J.sub a
    · intro k
      simp only []
      split
      · rw [AMap.keys_del]; exact fun h => (List.mem_filter.1 h).1
      · exact fun h => h

private theorem removeLoop_topics (id : Nat) : ∀ (l : List Nat) (b : State),
    removeLoop id b l = leaveAll id b (l.map fun a => (b.heap a).topic)
  | [], _ => rfl
  | a :: l, b => by
    simp only [removeLoop, List.map_cons, leaveAll, removeStep_topic]
    cases h : leaveTopic id b (b.heap a).topic with
    | ok b' =>
      simp only [Res.bind]
      rw [removeLoop_topics id l b']
      congr 1
      exact List.map_congr_left fun x _ => (leave_keeps h).1 x
    | err => rfl
    | panic => rfl

private theorem leave_comm (id : Nat) {b : State} (J : Sane b) (t t' : Str) :
    (leaveTopic id b t).bind (fun b => leaveTopic id b t') = (leaveTopic id b t').bind (fun b => leaveTopic id b t) := by
  by_cases e : t = t'
  · subst e; rfl
  have other : ∀ (c : Prop) [Decidable c] (t t' : Str), t' ≠ t → (if c then b.byTopic.del t else b.byTopic) t' = b.byTopic t' := by
    intro c _ t t' h
    split
    · exact FMap.del_other _ h
    · rfl
  cases h : b.byTopic t with
  | none =>
    cases h' : b.byTopic t' with
    | none => simp [leaveTopic, h, h', Res.bind]
    | some p' =>
      simp only [leaveTopic, h, h', Res.bind]
      rw [other _ t' t e, h]
  | some p =>
    cases h' : b.byTopic t' with
    | none =>
      simp only [leaveTopic, h, h', Res.bind]
      rw [other _ t t' (Ne.symm e), h']
    | some p' =>
      have hp : (b.heap p).topic = t := (J.top t p h).1
      have hp' : (b.heap p').topic = t' := (J.top t' p' h').1
      have hne : p ≠ p' := by
        rintro rfl
        exact e (hp.symm.trans hp')
      have g1 : ∀ x, hset b.heap p x p' = b.heap p' := fun x => by simp [hset, Ne.symm hne]
      have g2 : ∀ x, hset b.heap p' x p = b.heap p := fun x => by simp [hset, hne]
      simp only [leaveTopic, h, h', Res.bind]
      rw [other _ t t' (Ne.symm e), other _ t' t e, h, h']
      simp only [g1, g2, hp, hp']
      congr 1
      simp only [State.mk.injEq, true_and, and_true]
      exact ⟨hset_comm _ hne _ _, ite_comm2 _ _ (fun m : FMap Str Nat => m.del t) (fun m => m.del t') (fun m => FMap.del_comm m _ _) _,
        ite_comm2 _ _ (fun m : AMap Str Nat => m.del t) (fun m => m.del t') (fun m => AMap.del_comm m _ _) _,
        ite_comm2 _ _ (fun m : AMap Str Nat => m.del t) (fun m => m.del t') (fun m => AMap.del_comm m _ _) _⟩

private theorem leaveAll_perm (id : Nat) {l l' : List Str} (hp : l.Perm l') : ∀ {b : State}, Sane b → leaveAll id b l = leaveAll id b l' := by
  induction hp with
  | nil => intros; rfl
  | cons x _ ih =>
    intro b J
    simp only [leaveAll]
    cases h : leaveTopic id b x with
    | ok b' => exact ih ((leave_keeps h).2.1 J)
    | err => rfl
    | panic => rfl
  | swap x y l =>
    intro b J
    have c := leave_comm id J x y
    simp only [leaveAll]
    have assoc : ∀ (r : Res State) (t : Str), r.bind (fun b => (leaveTopic id b t).bind fun b => leaveAll id b l) =
        (r.bind fun b => leaveTopic id b t).bind fun b => leaveAll id b l := by
      intro r t; cases r <;> rfl
    rw [assoc, assoc, c]
  | trans _ _ ih1 ih2 => intro b J; rw [ih1 J, ih2 J]

private theorem removeLoop_perm (id : Nat) {l l' : List Nat} (hp : l.Perm l') {b : State} (J : Sane b) :
    removeLoop id b l = removeLoop id b l' := by
  rw [removeLoop_topics, removeLoop_topics]
  exact leaveAll_perm id (hp.map _) J

private theorem remove_order {b : State} (J : Sane b) (id : Nat) (o o' : List Nat) : removeSession b id o = removeSession b id o' := by
  simp only [removeSession]
  cases h : b.bySession id with
  | none => rfl
  | some m =>
    have hp : ((arrange o m.keys).filterMap m.get).Perm ((arrange o' m.keys).filterMap m.get) :=
      (arrange_perm o o' (J.nod id m h)).filterMap _
    have J' : Sane { b with bySession := b.bySession.del id } := by
      refine ⟨J.top, J.sub, fun s m' h' => J.nod s m' ?_⟩
      revert h'
      simp only [FMap.del]
      split <;> simp
    simp only []
    rw [removeLoop_perm id hp J']

private theorem leaveAll_keeps {id : Nat} : ∀ {l : List Str} {b b' : State}, leaveAll id b l = .ok b' →
    (Sane b → Sane b') ∧ ∀ k ∈ b'.wc.keys, k ∈ b.wc.keys
  | [], _, _, h => by cases h; exact ⟨fun J => J, fun _ h => h⟩
  | t :: l, b, b', h => by
    simp only [leaveAll] at h
    cases h1 : leaveTopic id b t with
    | ok b1 =>
      rw [h1] at h
      have h2 := leaveAll_keeps (l := l) (b := b1) h
      exact ⟨fun J => h2.1 ((leave_keeps h1).2.1 J), fun k hk => (leave_keeps h1).2.2.2 k (h2.2 k hk)⟩
    | err => rw [h1] at h; cases h
    | panic => rw [h1] at h; cases h

private theorem remove_keeps {b : State} (J : Sane b) (id : Nat) (o : List Nat) :
    Sane (removeSession b id o).1 ∧ ∀ k ∈ (removeSession b id o).1.wc.keys, k ∈ b.wc.keys := by
  simp only [removeSession]
  cases h : b.bySession id with
  | none => exact ⟨J, fun _ h => h⟩
  | some m =>
    have J' : Sane { b with bySession := b.bySession.del id } := by
      refine ⟨J.top, J.sub, fun s m' h' => J.nod s m' ?_⟩
      revert h'
      simp only [FMap.del]
      split <;> simp
    simp only []
    rw [removeLoop_topics]
    cases h1 : leaveAll id { b with bySession := b.bySession.del id } _ with
    | ok b' =>
      have h2 := leaveAll_keeps h1
      exact ⟨⟨(h2.1 J').top, (h2.1 J').sub, (h2.1 J').nod⟩, h2.2⟩
    | err => exact ⟨J, fun _ h => h⟩
    | panic => exact ⟨J, fun _ h => h⟩

private theorem publish_keeps {b : State} (s q : Nat) (o : GoMap) (t : Str) (a : GoSlice) (k : GoMap) (wo : List Str)
    (so : List Nat) : (publish w b s q o t a k wo so).1 = if (b.bySession s).isSome then { b with idGen := (nextID b.idGen).1 } else b := by
  simp only [publish]
  cases h : b.bySession s with
  | none => rfl
  | some m =>
    simp only [Option.isSome_some, if_true]
    split
    · rfl
    · split
      · rfl
      · split <;> rfl

private theorem subscribe_keeps {b : State} (J : Sane b) (s q : Nat) (o : GoMap) (t : Str) :
    Sane (subscribe b s q o t).1 ∧
      ∀ k ∈ (subscribe b s q o t).1.wc.keys, k ∈ b.wc.keys ∨ (k = t ∧ o.text (str "match") = str "wildcard") := by
  have hses : ∀ (m : AMap Nat Nat) (i a : Nat), b.bySession s = some m → ∀ s' m', (b.bySession.set s (m.set i a)) s' = some m' →
      m'.keys.Nodup := by
    intro m i a hm s' m' h
    simp only [FMap.set] at h
    split at h
    · cases h; exact AMap.nodup_set (J.nod s m hm) _ _
    · exact J.nod s' m' h
  simp only [subscribe]
  cases hm : b.bySession s with
  | none => exact ⟨J, fun _ h => Or.inl h⟩
  | some m =>
    cases hp : b.byTopic t with
    | some p =>
      refine ⟨⟨fun t' a h => ?_, fun a => ?_, hses m _ _ hm⟩, fun _ h => Or.inl h⟩
      · refine ⟨?_, (J.top t' a h).2⟩
        simp only [hset]
        split
        · rename_i e; subst e; exact (J.top t' _ h).1
        · exact (J.top t' a h).1
      · simp only [hset]
        split
        · split
          · exact J.sub p
          · rename_i hc
            refine List.nodup_append.2 ⟨J.sub p, by simp, ?_⟩
            intro x hx y hy e
            rw [List.mem_singleton] at hy
            subst hy; subst e
            exact hc (List.contains_iff_mem.2 hx)
        · exact J.sub a
    | none =>
      refine ⟨⟨fun t' a h => ?_, fun a => ?_, hses m _ _ hm⟩, fun k h => ?_⟩
      · simp only [FMap.set] at h
        split at h
        · cases h
          rename_i e
          simp [hset, e]
        · have := J.top t' a h
          refine ⟨?_, Nat.lt_succ_of_lt this.2⟩
          simp only [hset]
          split
          · rename_i e; omega
          · exact this.1
      · simp only [hset]
        split
        · simp
        · exact J.sub a
      · revert h
        simp only []
        split
        · rename_i e
          intro h
          rw [AMap.keys_set] at h
          split at h
          · exact Or.inl h
          · rcases List.mem_append.1 h with h | h
            · exact Or.inl h
            · exact Or.inr ⟨List.mem_singleton.1 h, (normMatch_wildcard _).1 e⟩
        · exact Or.inl

private theorem unsubscribe_keeps {b : State} (J : Sane b) (s q i : Nat) :
    Sane (unsubscribe b s q i).1 ∧ ∀ k ∈ (unsubscribe b s q i).1.wc.keys, k ∈ b.wc.keys := by
  simp only [unsubscribe]
  cases hm : b.bySession s with
  | none => exact ⟨J, fun _ h => h⟩
  | some m =>
    simp only []
    cases hg : m.get i with
    | none => exact ⟨J, fun _ h => h⟩
    | some p =>
      refine ⟨⟨fun t a h => ?_, fun a => ?_, fun s' m' h => ?_⟩, fun k => ?_⟩
      · have h0 : b.byTopic t = some a := by
          revert h
          simp only []
          split
          · simp only [FMap.del]
            split <;> simp
          · exact fun h => h
        refine ⟨?_, (J.top t a h0).2⟩
        simp only [hset]
        split
        · rename_i e; subst e; exact (J.top t _ h0).1
        · exact (J.top t a h0).1
      · simp only [hset]
        split
        · exact (J.sub p).filter _
        · exact J.sub a
      · simp only [FMap.set] at h
        split at h
        · cases h; exact AMap.nodup_del (J.nod s m hm) _
        · exact J.nod s' m' h
      · simp only []
        split
        · rw [AMap.keys_del]; exact fun h => (List.mem_filter.1 h).1
        · exact fun h => h

private theorem step_keeps {b : State} (J : Sane b) (op : Op) :
    Sane (step w b op).1 ∧ ∀ k ∈ (step w b op).1.wc.keys, k ∈ b.wc.keys ∨
      ∃ s q o, op = .receive s (.subscribe q o k) ∧ o.text (str "match") = str "wildcard" := by
  cases op with
  | add d =>
    simp only [step, addSession]
    split
    · exact ⟨J, fun _ h => Or.inl h⟩
    · refine ⟨⟨J.top, J.sub, fun s m h => ?_⟩, fun _ h => Or.inl h⟩
      simp only [FMap.set] at h
      split at h
      · cases h; exact List.nodup_nil
      · exact J.nod s m h
  | remove s o => exact ⟨(remove_keeps J s o).1, fun k h => Or.inl ((remove_keeps J s o).2 k h)⟩
  | has t => exact ⟨J, fun _ h => Or.inl h⟩
  | disclose on => exact ⟨⟨J.top, J.sub, J.nod⟩, fun _ h => Or.inl h⟩
  | receive s m =>
    simp only [step, receive]
    split
    · rename_i q o t
      refine ⟨(subscribe_keeps J s q o t).1, fun k h => ?_⟩
      rcases (subscribe_keeps J s q o t).2 k h with h | ⟨rfl, h'⟩
      · exact Or.inl h
      · exact Or.inr ⟨s, q, o, rfl, h'⟩
    · rename_i q i
      exact ⟨(unsubscribe_keeps J s q i).1, fun k h => Or.inl ((unsubscribe_keeps J s q i).2 k h)⟩
    · exact ⟨J, fun _ h => Or.inl h⟩
  | publish s q o t a k wo so =>
    simp only [step]
    rw [publish_keeps]
    split
    · exact ⟨⟨J.top, J.sub, J.nod⟩, fun _ h => Or.inl h⟩
    · exact ⟨J, fun _ h => Or.inl h⟩

private theorem hist_sane {h : List Event} {b : State} (H : Hist w h b) :
    Sane b ∧ ∀ k ∈ b.wc.keys, ∃ e ∈ h, ∃ s q o, e.op = .receive s (.subscribe q o k) ∧ o.text (str "match") = str "wildcard" := by
  induction H with
  | new =>
    exact ⟨⟨fun t a h => by simp [init] at h, fun a => List.nodup_nil, fun s m h => by simp [init] at h⟩, fun k h => by simp [init, AMap.keys] at h⟩
  | step op _ ih =>
    refine ⟨(step_keeps ih.1 op).1, fun k hk => ?_⟩
    rcases (step_keeps (w := w) ih.1 op).2 k hk with h1 | ⟨s, q, o, h1, h2⟩
    · obtain ⟨e, he, h3⟩ := ih.2 k h1
      exact ⟨e, List.mem_cons_of_mem _ he, h3⟩
    · exact ⟨_, List.mem_cons_self .., s, q, o, h1, h2⟩

private theorem step_same {b : State} (J : Sane b) {op op' : Op} (h : op.same op') : (step w b op).1 = (step w b op').1 := by
  cases op <;> cases op' <;> simp only [Op.same] at h <;> first | (cases h; done) | (cases h; rfl) | skip
  · subst h
    simp only [step]
    rw [remove_order J]
  · obtain ⟨rfl, rfl, rfl, rfl, rfl, rfl⟩ := h
    simp only [step]
    rw [publish_keeps, publish_keeps]

private theorem answer_same {b : State} (J : Sane b) {op op' : Op} (h : op.same op')
    (hd : ∀ s q o u a k wo so, op = .publish s q o u a k wo so →
      ∀ p1 ∈ b.wc.keys, ∀ p2 ∈ b.wc.keys, w u p1 = true → w u p2 = true → p1 = p2) :
    sameAnswer (step w b op).2 (step w b op').2 := by
  have refl : ∀ r : Res Out, sameAnswer r r := by
    intro r
    cases r with
    | ok o => cases o <;> first | rfl | exact ⟨rfl, rfl, List.Perm.refl _⟩
    | err => rfl
    | panic => rfl
  cases op <;> cases op' <;> simp only [Op.same] at h <;> first | (cases h; done) | (cases h; exact refl _) | skip
  · subst h
    simp only [step]
    rw [remove_order J]
    exact refl _
  · obtain ⟨rfl, rfl, rfl, rfl, rfl, rfl⟩ := h
    rename_i s q o t a k wo so wo' so'
    have hl : lookup w wo b t = lookup w wo' b t := by
      simp only [lookup]
      rw [firstWildcard_order wo wo' (hd _ _ _ _ _ _ _ _ rfl)]
    simp only [step, publish]
    cases hm : b.bySession s with
    | none => exact refl _
    | some m =>
      simp only [hl]
      cases lookup w wo' b t with
      | none => exact refl _
      | some p =>
        simp only []
        split
        · exact refl _
        · cases eventDetails b s t with
          | ok d => exact ⟨rfl, rfl, arrange_perm _ _ (J.sub p)⟩
          | err => exact refl _
          | panic => exact refl _

/-- C141: after the same calls a broker is in the same state: in particular every later call has the same effect. -/
theorem C141_broker_state {h h' : List Event} {b b' : State} (H : Hist w h b) (H' : Hist w h' b') (hs : sameCalls h h') : b = b' := by
  induction H generalizing h' b' with
  | new =>
    cases H' with
    | new => rfl
    | step op _ => cases hs
  | step op H ih =>
    cases H' with
    | new => cases hs
    | step op' H' =>
      have e := ih H' hs.2
      subst e
      exact step_same (hist_sane H).1 hs.1

private theorem decided_tail {e : Event} {h : List Event} (hd : Decided w (e :: h)) : Decided w h :=
  fun e0 he0 s q o u a k wo so h0 e1 he1 s1 q1 o1 p1 h1 m1 e2 he2 s2 q2 o2 p2 h2 m2 =>
    hd e0 (List.mem_cons_of_mem _ he0) s q o u a k wo so h0 e1 (List.mem_cons_of_mem _ he1) s1 q1 o1 p1 h1 m1 e2
      (List.mem_cons_of_mem _ he2) s2 q2 o2 p2 h2 m2

/-- C141: the same calls are given the same answers, if no published topic matches two wildcard patterns. -/
theorem C141_broker_partial {h h' : List Event} {b b' : State} (H : Hist w h b) (H' : Hist w h' b') (hs : sameCalls h h')
    (hd : Decided w h) : sameAnswers h h' := by
  induction H generalizing h' b' with
  | new =>
    cases H' with
    | new => trivial
    | step op _ => cases hs
  | @step h0 b0 op H ih =>
    cases H' with
    | new => cases hs
    | step op' H' =>
      refine ⟨?_, ih H' hs.2 (decided_tail hd)⟩
      have e := C141_broker_state H H' hs.2
      subst e
      refine answer_same (hist_sane H).1 hs.1 fun s q o u a k wo so hop p1 hp1 p2 hp2 w1 w2 => ?_
      obtain ⟨e1, he1, s1, q1, o1, h1, m1⟩ := (hist_sane H).2 p1 hp1
      obtain ⟨e2, he2, s2, q2, o2, h2, m2⟩ := (hist_sane H).2 p2 hp2
      exact hd _ (List.mem_cons_self ..) s q o u a k wo so hop e1 (List.mem_cons_of_mem _ he1) s1 q1 o1 p1 h1 m1 e2
        (List.mem_cons_of_mem _ he2) s2 q2 o2 p2 h2 m2 w1 w2

/-- PUBLISH with an iteration order of the patterns and of the subscribers. -/
private def pubIn (s : Nat) (t : String) (wo : List String) (so : List Nat) : Op := .publish s 1 none (str t) none none (wo.map str) so

/-- Two topics and a pattern; the subscriber of two of them leaves, and the order in which its subscriptions are walked through differs, as does that of the
subscribers and that of the patterns. -/
example : ∃ h h' b b', Hist PathMatch.wildcardMatch h b ∧ Hist PathMatch.wildcardMatch h' b' ∧ sameCalls h h' ∧
    Decided PathMatch.wildcardMatch h ∧ h.map Event.recipients ≠ h'.map Event.recipients ∧ (h.head?.map Event.recipients) = some [2, 3] := by
  refine ⟨_, _, _, _,
    hist_exec .new [.add (who 1), .add (who 2), .add (who 3), sub 1 "t", sub 1 "u", sub 2 "t", .remove 1 [1, 2], subWith 2 "a.*" "wildcard",
      sub 3 "a.*", pubIn 2 "a.b" ["a.*"] [2, 3]],
    hist_exec .new [.add (who 1), .add (who 2), .add (who 3), sub 1 "t", sub 1 "u", sub 2 "t", .remove 1 [2, 1], subWith 2 "a.*" "wildcard",
      sub 3 "a.*", pubIn 2 "a.b" [] [3, 2]],
    ?_, ?_, by decide +kernel, by decide +kernel⟩
  · simp [sameCalls, exec, Op.same, sub, subWith, pubIn]
  · intro e he s q o u a k wo so hop e1 he1 s1 q1 o1 p1 h1 m1 e2 he2 s2 q2 o2 p2 h2 m2 _ _
    have key : ∀ e1 ∈ (exec PathMatch.wildcardMatch ([], init) [.add (who 1), .add (who 2), .add (who 3), sub 1 "t", sub 1 "u", sub 2 "t",
        .remove 1 [1, 2], subWith 2 "a.*" "wildcard", sub 3 "a.*", pubIn 2 "a.b" ["a.*"] [2, 3]]).1, ∀ s1 q1 o1 p1,
        e1.op = .receive s1 (.subscribe q1 o1 p1) → o1.text (str "match") = str "wildcard" → p1 = str "a.*" := by
      intro e1 he1 s1 q1 o1 p1 h1 m1
      simp only [exec, List.mem_cons, List.not_mem_nil, or_false] at he1
      rcases he1 with rfl | rfl | rfl | rfl | rfl | rfl | rfl | rfl | rfl | rfl <;>
        simp only [sub, subWith, pubIn, reduceCtorEq, Op.receive.injEq, Msg.subscribe.injEq] at h1 <;>
        obtain ⟨-, -, rfl, rfl⟩ := h1 <;> first | rfl | exact absurd m1 (by decide)
    rw [key e1 he1 s1 q1 o1 p1 h1 m1, key e2 he2 s2 q2 o2 p2 h2 m2]

/-- **C141 is false** for brokers: two subscribed patterns match the published topic, and it is a matter of chance which of the two subscribers gets the EVENT. -/
theorem C141_broker_chance : ∃ h h' b b', Hist PathMatch.wildcardMatch h b ∧ Hist PathMatch.wildcardMatch h' b' ∧ sameCalls h h' ∧
    h.head?.map Event.recipients = some [1] ∧ h'.head?.map Event.recipients = some [2] := by
  refine ⟨_, _, _, _,
    hist_exec .new [.add (who 1), .add (who 2), subWith 1 "a.*" "wildcard", subWith 2 "*.b" "wildcard", pubIn 2 "a.b" ["a.*", "*.b"] []],
    hist_exec .new [.add (who 1), .add (who 2), subWith 1 "a.*" "wildcard", subWith 2 "*.b" "wildcard", pubIn 2 "a.b" ["*.b", "a.*"] []],
    ?_, by decide +kernel, by decide +kernel⟩
  simp [sameCalls, exec, Op.same, subWith, pubIn]

end Wamp.Broker

namespace Wamp.Dealer
variable {w : Str → Str → Bool}

/-- What holds of every dealer. -/
structure Sane (b : State) : Prop where
  top : ∀ t a, b.byProc t = some a → (b.heap a).procedure = t ∧ a < b.next
  nod : ∀ s m, b.bySession s = some m → m.keys.Nodup

/-- One iteration of the loop in `RemoveSession`, for the procedure of the registration. -/
private def leaveProc (id : Nat) (b : State) (t : Str) : Res State :=
  match b.byProc t with
  | none => .ok b
  | some p =>
    (surgery id (b.heap p).callees.length 0 (b.heap p).callees (b.heap p).callees.length).bind fun cs =>
      .ok { b with
        heap := hset b.heap p { b.heap p with registrants := (b.heap p).registrants.filter (· ≠ id), callees := cs }
        byProc := if ((b.heap p).registrants.filter (· ≠ id)).isEmpty then b.byProc.del (b.heap p).procedure else b.byProc
        wc := if (b.heap p).mtch = matchWildcard then b.wc.del (b.heap p).procedure else b.wc }

/-- The loop. -/
private def leaveAll (id : Nat) : State → List Str → Res State
  | b, [] => .ok b
  | b, t :: ts => (leaveProc id b t).bind fun b => leaveAll id b ts

private theorem removeStep_proc (id : Nat) (b : State) (a : Nat) : removeStep id b a = leaveProc id b (b.heap a).procedure := rfl

private theorem leave_keeps {id : Nat} {b b' : State} {t : Str} (h : leaveProc id b t = .ok b') :
    (∀ a, (b'.heap a).procedure = (b.heap a).procedure ∧ (b'.heap a).policy = (b.heap a).policy) ∧ (Sane b → Sane b') ∧
      ∀ k ∈ b'.wc.keys, k ∈ b.wc.keys := by
  simp only [leaveProc] at h
  split at h
  · cases h
    exact ⟨fun _ => ⟨rfl, rfl⟩, fun J => J, fun _ h => h⟩
  · rename_i p hp
    cases hs : surgery id (b.heap p).callees.length 0 (b.heap p).callees (b.heap p).callees.length with
    | err => rw [hs] at h; cases h
    | panic => rw [hs] at h; cases h
    | ok cs =>
      rw [hs] at h
      cases h
      have ht : ∀ a, (hset b.heap p { b.heap p with registrants := (b.heap p).registrants.filter (· ≠ id), callees := cs } a).procedure =
          (b.heap a).procedure ∧
          (hset b.heap p { b.heap p with registrants := (b.heap p).registrants.filter (· ≠ id), callees := cs } a).policy =
          (b.heap a).policy := by
        intro a
        simp only [hset]
        split
        · rename_i e; subst e; exact ⟨rfl, rfl⟩
        · exact ⟨rfl, rfl⟩
      refine ⟨ht, fun J => ⟨?_, J.nod⟩, ?_⟩
      · intro t' a h1
        rw [(ht a).1]
        refine J.top t' a ?_
        revert h1
        simp only []
        split
        · simp only [FMap.del]
          split <;> simp
        · exact fun h => h
      · intro k
        simp only []
        split
        · rw [AMap.keys_del]; exact fun h => (List.mem_filter.1 h).1
        · exact fun h => h

private theorem removeLoop_procs (id : Nat) : ∀ (l : List Nat) (b : State),
    removeLoop id b l = leaveAll id b (l.map fun a => (b.heap a).procedure)
  | [], _ => rfl
  | a :: l, b => by
    simp only [removeLoop, List.map_cons, leaveAll, removeStep_proc]
    cases h : leaveProc id b (b.heap a).procedure with
    | ok b' =>
      simp only [Res.bind]
      rw [removeLoop_procs id l b']
      congr 1
      exact List.map_congr_left fun x _ => ((leave_keeps h).1 x).1
    | err => rfl
    | panic => rfl

private theorem surgery_err (id : Nat) : ∀ (k i : Nat) (bk : List Nat) (len : Nat), surgery id k i bk len ≠ .err
  | 0, _, _, _ => by simp [surgery]
  | k + 1, i, bk, len => by
    simp only [surgery]
    split
    · split
      · exact surgery_err id k _ _ _
      · split
        · simp
        · exact surgery_err id k _ _ _
    · exact surgery_err id k _ _ _

private theorem leave_comm (id : Nat) {b : State} (J : Sane b) (t t' : Str) :
    (leaveProc id b t).bind (fun b => leaveProc id b t') = (leaveProc id b t').bind (fun b => leaveProc id b t) := by
  by_cases e : t = t'
  · subst e; rfl
  have other : ∀ (c : Prop) [Decidable c] (t t' : Str), t' ≠ t → (if c then b.byProc.del t else b.byProc) t' = b.byProc t' := by
    intro c _ t t' h
    split
    · exact FMap.del_other _ h
    · rfl
  cases h : b.byProc t with
  | none =>
    have e1 : leaveProc id b t = .ok b := by simp [leaveProc, h]
    rw [e1]
    cases h' : leaveProc id b t' with
    | ok b' =>
      have : b'.byProc t = none := by
        simp only [leaveProc] at h'
        cases hp : b.byProc t' with
        | none => rw [hp] at h'; cases h'; exact h
        | some p =>
          rw [hp] at h'
          simp only [] at h'
          cases hs : surgery id (b.heap p).callees.length 0 (b.heap p).callees (b.heap p).callees.length with
          | err => rw [hs] at h'; cases h'
          | panic => rw [hs] at h'; cases h'
          | ok cs =>
            rw [hs] at h'
            cases h'
            simp only [(J.top t' p hp).1]
            rw [other _ t' t e, h]
      have e2 : leaveProc id b' t = .ok b' := by simp [leaveProc, this]
      simp only [Res.bind, h', e2]
    | err => simp [Res.bind, h']
    | panic => simp [Res.bind, h']
  | some p =>
    have hp : (b.heap p).procedure = t := (J.top t p h).1
    cases h' : b.byProc t' with
    | none =>
      have e1 : leaveProc id b t' = .ok b := by simp [leaveProc, h']
      rw [e1]
      simp only [Res.bind]
      simp only [leaveProc, h]
      cases hs : surgery id (b.heap p).callees.length 0 (b.heap p).callees (b.heap p).callees.length with
      | err => rfl
      | panic => rfl
      | ok cs =>
        simp only [Res.bind, hp]
        rw [other _ t t' (Ne.symm e), h']
    | some p' =>
      have hp' : (b.heap p').procedure = t' := (J.top t' p' h').1
      have hne : p ≠ p' := by
        rintro rfl
        exact e (hp.symm.trans hp')
      have g1 : ∀ x, hset b.heap p x p' = b.heap p' := fun x => by simp [hset, Ne.symm hne]
      have g2 : ∀ x, hset b.heap p' x p = b.heap p := fun x => by simp [hset, hne]
      simp only [leaveProc, h, h']
      cases hs : surgery id (b.heap p).callees.length 0 (b.heap p).callees (b.heap p).callees.length with
      | err => exact absurd hs (surgery_err _ _ _ _ _)
      | panic =>
        cases hs' : surgery id (b.heap p').callees.length 0 (b.heap p').callees (b.heap p').callees.length with
        | err => exact absurd hs' (surgery_err _ _ _ _ _)
        | panic => rfl
        | ok cs' =>
          simp only [Res.bind, hp']
          rw [other _ t' t e, h]
          simp only [g2, hs]
      | ok cs =>
        cases hs' : surgery id (b.heap p').callees.length 0 (b.heap p').callees (b.heap p').callees.length with
        | err => exact absurd hs' (surgery_err _ _ _ _ _)
        | panic =>
          simp only [Res.bind, hp]
          rw [other _ t t' (Ne.symm e), h']
          simp only [g1, hs']
        | ok cs' =>
          simp only [Res.bind, hp, hp']
          rw [other _ t t' (Ne.symm e), other _ t' t e, h, h']
          simp only [g1, g2, hs, hs', hp, hp']
          congr 1
          simp only [State.mk.injEq, true_and, and_true]
          exact ⟨hset_comm _ hne _ _, ite_comm2 _ _ (fun m : FMap Str Nat => m.del t) (fun m => m.del t') (fun m => FMap.del_comm m _ _) _,
            ite_comm2 _ _ (fun m : AMap Str Nat => m.del t) (fun m => m.del t') (fun m => AMap.del_comm m _ _) _⟩

private theorem leaveAll_perm (id : Nat) {l l' : List Str} (hp : l.Perm l') : ∀ {b : State}, Sane b → leaveAll id b l = leaveAll id b l' := by
  induction hp with
  | nil => intros; rfl
  | cons x _ ih =>
    intro b J
    simp only [leaveAll]
    cases h : leaveProc id b x with
    | ok b' => exact ih ((leave_keeps h).2.1 J)
    | err => rfl
    | panic => rfl
  | swap x y l =>
    intro b J
    have c := leave_comm id J x y
    simp only [leaveAll]
    have assoc : ∀ (r : Res State) (t : Str), r.bind (fun b => (leaveProc id b t).bind fun b => leaveAll id b l) =
        (r.bind fun b => leaveProc id b t).bind fun b => leaveAll id b l := by
      intro r t; cases r <;> rfl
    rw [assoc, assoc, c]
  | trans _ _ ih1 ih2 => intro b J; rw [ih1 J, ih2 J]

private theorem remove_order {b : State} (J : Sane b) (id : Nat) (o o' : List Nat) : removeSession b id o = removeSession b id o' := by
  have hn : ((b.bySession id).getD []).keys.Nodup := by
    cases h : b.bySession id with
    | none => exact List.nodup_nil
    | some m => exact J.nod id m h
  have hp := (arrange_perm o o' hn).filterMap ((b.bySession id).getD []).get
  simp only [removeSession]
  rw [removeLoop_procs, removeLoop_procs, leaveAll_perm id (hp.map _) J]

/-- No registration has the policy "random". -/
private def NoDice (b : State) : Prop := ∀ a, (b.heap a).policy ≠ str "random"

private theorem leaveAll_keeps {id : Nat} : ∀ {l : List Str} {b b' : State}, leaveAll id b l = .ok b' →
    (Sane b → Sane b') ∧ (NoDice b → NoDice b') ∧ ∀ k ∈ b'.wc.keys, k ∈ b.wc.keys
  | [], _, _, h => by cases h; exact ⟨fun J => J, fun J => J, fun _ h => h⟩
  | t :: l, b, b', h => by
    simp only [leaveAll] at h
    cases h1 : leaveProc id b t with
    | ok b1 =>
      rw [h1] at h
      have h2 := leaveAll_keeps (l := l) (b := b1) h
      exact ⟨fun J => h2.1 ((leave_keeps h1).2.1 J), fun J => h2.2.1 fun a => by rw [((leave_keeps h1).1 a).2]; exact J a,
        fun k hk => (leave_keeps h1).2.2 k (h2.2.2 k hk)⟩
    | err => rw [h1] at h; cases h
    | panic => rw [h1] at h; cases h

private theorem remove_keeps {b : State} (J : Sane b) (id : Nat) (o : List Nat) :
    Sane (removeSession b id o).1 ∧ (NoDice b → NoDice (removeSession b id o).1) ∧
      ∀ k ∈ (removeSession b id o).1.wc.keys, k ∈ b.wc.keys := by
  simp only [removeSession]
  split
  · exact ⟨J, fun h => h, fun _ h => h⟩
  · rw [removeLoop_procs]
    split
    · rename_i b' h1
      have h2 := leaveAll_keeps h1
      refine ⟨⟨(h2.1 J).top, fun s m' h' => (h2.1 J).nod s m' ?_⟩, h2.2.1, h2.2.2⟩
      revert h'
      simp only [FMap.del]
      split <;> simp
    · exact ⟨J, fun h => h, fun _ h => h⟩
    · exact ⟨J, fun h => h, fun _ h => h⟩

private theorem call_keeps {b : State} (J : Sane b) (s q : Nat) (o : GoMap) (u : Str) (x : GoSlice) (y : GoMap) (bin : Bin)
    (order : List Str) (rnd : Nat) :
    Sane (call w b s q o u x y bin order rnd).1 ∧ (NoDice b → NoDice (call w b s q o u x y bin order rnd).1) ∧
      (call w b s q o u x y bin order rnd).1.wc = b.wc := by
  simp only [call]
  split
  · exact ⟨J, fun h => h, rfl⟩
  · rename_i a ha
    split
    · exact ⟨J, fun h => h, rfl⟩
    · split
      · exact ⟨J, fun h => h, rfl⟩
      · exact ⟨J, fun h => h, rfl⟩
      · rename_i callee nc hpk
        have ht : ∀ a', (hset b.heap a { b.heap a with nextCallee := nc } a').procedure = (b.heap a').procedure ∧
            (hset b.heap a { b.heap a with nextCallee := nc } a').policy = (b.heap a').policy := by
          intro a'
          simp only [hset]
          split
          · rename_i e; subst e; exact ⟨rfl, rfl⟩
          · exact ⟨rfl, rfl⟩
        have fin : ∀ b' : State, b'.heap = hset b.heap a { b.heap a with nextCallee := nc } → b'.byProc = b.byProc → b'.next = b.next →
            b'.bySession = b.bySession → b'.wc = b.wc → Sane b' ∧ (NoDice b → NoDice b') ∧ b'.wc = b.wc := by
          intro b' e1 e2 e3 e4 e5
          refine ⟨⟨fun t a' h => ?_, fun s m h => J.nod s m (e4 ▸ h)⟩, fun D a' => ?_, e5⟩
          · rw [e1, e3, (ht a').1]; exact J.top t a' (e2 ▸ h)
          · rw [e1, (ht a').2]; exact D a'
        split
        · exact fin _ rfl rfl rfl rfl rfl
        · split
          · exact fin _ rfl rfl rfl rfl rfl
          · split <;> exact fin _ rfl rfl rfl rfl rfl

private theorem register_keeps {b : State} (J : Sane b) (s q : Nat) (o : GoMap) (t : Str) :
    Sane (register b s q o t).1 ∧ (NoDice b → o.text (str "invoke") ≠ str "random" → NoDice (register b s q o t).1) ∧
      ∀ k ∈ (register b s q o t).1.wc.keys, k ∈ b.wc.keys ∨ (k = t ∧ o.text (str "match") = str "wildcard") := by
  have hses : ∀ (m : AMap Nat Nat) (i a : Nat), b.bySession s = some m → ∀ s' m', (b.bySession.set s (m.set i a)) s' = some m' →
      m'.keys.Nodup := by
    intro m i a hm s' m' h
    simp only [FMap.set] at h
    split at h
    · cases h; exact AMap.nodup_set (J.nod s m hm) _ _
    · exact J.nod s' m' h
  simp only [register]
  cases hm : b.bySession s with
  | none => exact ⟨J, fun h _ => h, fun _ h => Or.inl h⟩
  | some m =>
    simp only []
    cases hp : b.byProc t with
    | some p =>
      simp only []
      split
      · exact ⟨J, fun h _ => h, fun _ h => Or.inl h⟩
      · refine ⟨⟨fun t' a h => ?_, hses m _ _ hm⟩, fun D _ a => ?_, fun _ h => Or.inl h⟩
        · refine ⟨?_, (J.top t' a h).2⟩
          simp only [hset]
          split
          · rename_i e; subst e; exact (J.top t' _ h).1
          · exact (J.top t' a h).1
        · simp only [hset]
          split
          · exact D p
          · exact D a
    | none =>
      refine ⟨⟨fun t' a h => ?_, hses m _ _ hm⟩, fun D hi a => ?_, fun k h => ?_⟩
      · simp only [FMap.set] at h
        split at h
        · cases h
          rename_i e
          simp [hset, e]
        · have := J.top t' a h
          refine ⟨?_, Nat.lt_succ_of_lt this.2⟩
          simp only [hset]
          split
          · rename_i e; omega
          · exact this.1
      · simp only [hset]
        split
        · exact hi
        · exact D a
      · revert h
        simp only []
        split
        · rename_i e
          intro h
          rw [AMap.keys_set] at h
          split at h
          · exact Or.inl h
          · rcases List.mem_append.1 h with h | h
            · exact Or.inl h
            · exact Or.inr ⟨List.mem_singleton.1 h, (normMatch_wildcard _).1 e⟩
        · exact Or.inl

private theorem unregister_keeps {b : State} (J : Sane b) (s q i : Nat) :
    Sane (unregister b s q i).1 ∧ (NoDice b → NoDice (unregister b s q i).1) ∧ ∀ k ∈ (unregister b s q i).1.wc.keys, k ∈ b.wc.keys := by
  simp only [unregister]
  cases hm : b.bySession s with
  | none => exact ⟨J, fun h => h, fun _ h => h⟩
  | some m =>
    simp only []
    split
    · exact ⟨J, fun h => h, fun _ h => h⟩
    · cases hg : m.get i with
      | none => exact ⟨J, fun h => h, fun _ h => h⟩
      | some p =>
        have ht : ∀ a, (hset b.heap p { b.heap p with registrants := (b.heap p).registrants.filter (· ≠ s) } a).procedure =
            (b.heap a).procedure ∧
            (hset b.heap p { b.heap p with registrants := (b.heap p).registrants.filter (· ≠ s) } a).policy = (b.heap a).policy := by
          intro a
          simp only [hset]
          split
          · rename_i e; subst e; exact ⟨rfl, rfl⟩
          · exact ⟨rfl, rfl⟩
        simp only []
        split
        · refine ⟨⟨fun t a h => ?_, fun s' m' h => ?_⟩, fun D a => ?_, fun k => ?_⟩
          · rw [(ht a).1]
            refine J.top t a ?_
            revert h
            simp only [FMap.del]
            split <;> simp
          · simp only [FMap.set] at h
            split at h
            · cases h; exact AMap.nodup_del (J.nod s m hm) _
            · exact J.nod s' m' h
          · rw [(ht a).2]; exact D a
          · simp only []
            split
            · rw [AMap.keys_del]; exact fun h => (List.mem_filter.1 h).1
            · exact fun h => h
        · exact ⟨⟨fun t a h => by rw [(ht a).1]; exact J.top t a h, J.nod⟩, fun D a => by rw [(ht a).2]; exact D a, fun _ h => h⟩

private theorem step_keeps {b : State} (J : Sane b) (op : Op) :
    Sane (step w b op).1 ∧
      (NoDice b → (∀ s q o p order rnd, op = .receive s (.register q o p) order rnd → o.text (str "invoke") ≠ str "random") →
        NoDice (step w b op).1) ∧
      ∀ k ∈ (step w b op).1.wc.keys, k ∈ b.wc.keys ∨
        ∃ s q o order rnd, op = .receive s (.register q o k) order rnd ∧ o.text (str "match") = str "wildcard" := by
  cases op with
  | add d =>
    simp only [step, addSession]
    split
    · exact ⟨J, fun h _ => h, fun _ h => Or.inl h⟩
    · refine ⟨⟨J.top, fun s m h => ?_⟩, fun h _ => h, fun _ h => Or.inl h⟩
      simp only [FMap.set] at h
      split at h
      · cases h; exact List.nodup_nil
      · exact J.nod s m h
  | remove s o =>
    exact ⟨(remove_keeps J s o).1, fun h _ => (remove_keeps J s o).2.1 h, fun k h => Or.inl ((remove_keeps J s o).2.2 k h)⟩
  | has t => exact ⟨J, fun h _ => h, fun _ h => Or.inl h⟩
  | disclose on => exact ⟨⟨J.top, J.nod⟩, fun h _ => h, fun _ h => Or.inl h⟩
  | receive s m order rnd =>
    simp only [step, receive]
    split
    · rename_i q o u x y bin
      have := call_keeps (w := w) J s q o u x y bin order rnd
      exact ⟨this.1, fun h _ => this.2.1 h, fun k h => Or.inl (this.2.2 ▸ h)⟩
    · rename_i q o x y bin
      have h0 : ∀ {b' : State}, b' = b ∨ b' = { b with pending := b.pending.del q } →
          Sane b' ∧ (NoDice b → NoDice b') ∧ b'.wc = b.wc := by
        intro b' h
        rcases h with rfl | rfl
        · exact ⟨J, fun h => h, rfl⟩
        · exact ⟨⟨J.top, J.nod⟩, fun h => h, rfl⟩
      have h1 : (yield b q o x y bin).1 = b ∨ (yield b q o x y bin).1 = { b with pending := b.pending.del q } := by
        simp only [yield]
        split
        · exact Or.inl rfl
        · split <;> (split <;> first | exact Or.inl rfl | exact Or.inr rfl | (split <;> first | exact Or.inl rfl | exact Or.inr rfl))
      have := h0 h1
      exact ⟨this.1, fun h _ => this.2.1 h, fun k h => Or.inl (this.2.2 ▸ h)⟩
    · rename_i q o t
      have := register_keeps J s q o t
      refine ⟨this.1, fun h h' => this.2.1 h (h' _ _ _ _ _ _ rfl), fun k h => ?_⟩
      rcases this.2.2 k h with h | ⟨rfl, h'⟩
      · exact Or.inl h
      · exact Or.inr ⟨s, q, o, order, rnd, rfl, h'⟩
    · rename_i q i
      have := unregister_keeps J s q i
      exact ⟨this.1, fun h _ => this.2.1 h, fun k h => Or.inl (this.2.2 k h)⟩
    · simp only [error]
      split
      · exact ⟨J, fun h _ => h, fun _ h => Or.inl h⟩
      · split
        · exact ⟨J, fun h _ => h, fun _ h => Or.inl h⟩
        · exact ⟨⟨J.top, J.nod⟩, fun h _ => h, fun _ h => Or.inl h⟩
    · exact ⟨J, fun h _ => h, fun _ h => Or.inl h⟩

private theorem hist_sane {h : List Event} {b : State} (H : Hist w h b) :
    Sane b ∧
    ((∀ e ∈ h, ∀ s q o p order rnd, e.op = .receive s (.register q o p) order rnd → o.text (str "invoke") ≠ str "random") → NoDice b) ∧
    ∀ k ∈ b.wc.keys, ∃ e ∈ h, ∃ s q o order rnd, e.op = .receive s (.register q o k) order rnd ∧ o.text (str "match") = str "wildcard" := by
  induction H with
  | new =>
    exact ⟨⟨fun t a h => by simp [init] at h, fun s m h => by simp [init] at h⟩, fun _ a => by show ([] : Str) ≠ str "random"; decide, fun k h => by simp [init, AMap.keys] at h⟩
  | step op _ _ ih =>
    refine ⟨(step_keeps ih.1 op).1, fun hd => ?_, fun k hk => ?_⟩
    · exact (step_keeps ih.1 op).2.1 (ih.2.1 fun e he => hd e (List.mem_cons_of_mem _ he)) (hd _ (List.mem_cons_self ..))
    · rcases (step_keeps (w := w) ih.1 op).2.2 k hk with h1 | ⟨s, q, o, order, rnd, h1, h2⟩
      · obtain ⟨e, he, h3⟩ := ih.2.2 k h1
        exact ⟨e, List.mem_cons_of_mem _ he, h3⟩
      · exact ⟨_, List.mem_cons_self .., s, q, o, order, rnd, h1, h2⟩

private theorem pick_dice {g : Reg} (h : g.policy ≠ str "random") (r r' : Nat) : pick g r = pick g r' := by
  have : ¬g.policy = invokeRandom := h
  simp only [pick, this, if_false]

private theorem step_same {b : State} (J : Sane b) (D : NoDice b) {op op' : Op} (h : op.same op')
    (hd : ∀ s q o u a k bin order rnd, op = .receive s (.call q o u a k bin) order rnd →
      ∀ p1 ∈ b.wc.keys, ∀ p2 ∈ b.wc.keys, w u p1 = true → w u p2 = true → p1 = p2) : step w b op = step w b op' := by
  cases op <;> cases op' <;> simp only [Op.same] at h <;> first | (cases h; done) | (cases h; rfl) | skip
  · subst h
    simp only [step]
    rw [remove_order J]
  · obtain ⟨rfl, rfl⟩ := h
    rename_i s m order rnd order' rnd'
    cases m
    case call q o u a k bin =>
      have hl : lookup w order b u = lookup w order' b u := by
        simp only [lookup]
        rw [firstWildcard_order order order' (hd _ _ _ _ _ _ _ _ _ rfl)]
      have hc : call w b s q o u a k bin order rnd = call w b s q o u a k bin order' rnd' := by
        simp only [call, hl]
        cases lookup w order' b u with
        | none => rfl
        | some p =>
          simp only []
          rw [pick_dice (D p) rnd rnd']
      simp only [step, receive, hc]
    all_goals rfl

/-- C141: the same calls are given the same answers and leave the dealer in the same state, if nobody registers with the policy "random" and no called
procedure matches two wildcard patterns. -/
theorem C141_dealer_partial {h h' : List Event} {b b' : State} (H : Hist w h b) (H' : Hist w h' b') (hs : sameCalls h h')
    (hd : Decided w h) : b = b' ∧ h.map Event.res = h'.map Event.res := by
  induction H generalizing h' b' with
  | new =>
    cases H' with
    | new => exact ⟨rfl, rfl⟩
    | step op _ _ => cases hs
  | @step h0 b0 op H hn ih =>
    cases H' with
    | new => cases hs
    | step op' H' hn' =>
      have hd0 : Decided w h0 :=
        ⟨fun e he => hd.1 e (List.mem_cons_of_mem _ he),
        fun e0 he0 s q o u a k bin order rnd h0 e1 he1 s1 q1 o1 p1 order1 rnd1 h1 m1 e2 he2 =>
          hd.2 e0 (List.mem_cons_of_mem _ he0) s q o u a k bin order rnd h0 e1 (List.mem_cons_of_mem _ he1) s1 q1 o1 p1 order1 rnd1 h1 m1 e2
            (List.mem_cons_of_mem _ he2)⟩
      have e := ih H' hs.2 hd0
      obtain ⟨e, er⟩ := e
      subst e
      have hsane := hist_sane H
      have st := step_same hsane.1 (hsane.2.1 hd0.1) (w := w) hs.1 fun s q o u a k bin order rnd hop p1 hp1 p2 hp2 w1 w2 => by
        obtain ⟨e1, he1, s1, q1, o1, order1, rnd1, h1, m1⟩ := hsane.2.2 p1 hp1
        obtain ⟨e2, he2, s2, q2, o2, order2, rnd2, h2, m2⟩ := hsane.2.2 p2 hp2
        exact hd.2 _ (List.mem_cons_self ..) s q o u a k bin order rnd hop e1 (List.mem_cons_of_mem _ he1) s1 q1 o1 p1 order1 rnd1 h1 m1 e2
          (List.mem_cons_of_mem _ he2) s2 q2 o2 p2 order2 rnd2 h2 m2 w1 w2
      refine ⟨by rw [st], ?_⟩
      simp only [List.map_cons, er, st]

/-- CALL with an iteration order of the patterns and a random number. -/
private def callIn (c r : Nat) (p : String) (order : List String) (rnd : Nat) : Op :=
  .receive c (.call r none (str p) none none Bin.none) (order.map str) rnd

/-- Two callees, one of whom leaves; orders and random numbers differ. -/
example : ∃ h h' b b', Hist PathMatch.wildcardMatch h b ∧ Hist PathMatch.wildcardMatch h' b' ∧ sameCalls h h' ∧
    Decided PathMatch.wildcardMatch h ∧ (h.head?.bind Event.invocation?).isSome = true := by
  refine ⟨_, _, _, _,
    hist_run [.add (who 1), .add (who 2), .add (who 3), regBoth 1 "p.*" "wildcard" "roundrobin", regBoth 2 "p.*" "wildcard" "roundrobin", reg 3 "u",
      reg 3 "v", .remove 3 [3, 4], callIn 1 7 "p.x" ["p.*"] 5] (by decide +kernel),
    hist_run [.add (who 1), .add (who 2), .add (who 3), regBoth 1 "p.*" "wildcard" "roundrobin", regBoth 2 "p.*" "wildcard" "roundrobin", reg 3 "u",
      reg 3 "v", .remove 3 [4, 3], callIn 1 7 "p.x" [] 8] (by decide +kernel),
    ?_, ?_, by decide +kernel⟩
  · simp [sameCalls, run, exec, Op.same, reg, regBoth, callIn]
  · have key : ∀ e1 ∈ run PathMatch.wildcardMatch [.add (who 1), .add (who 2), .add (who 3), regBoth 1 "p.*" "wildcard" "roundrobin",
        regBoth 2 "p.*" "wildcard" "roundrobin", reg 3 "u", reg 3 "v", .remove 3 [3, 4], callIn 1 7 "p.x" ["p.*"] 5], ∀ s1 q1 o1 p1 order1 rnd1,
        e1.op = .receive s1 (.register q1 o1 p1) order1 rnd1 →
        o1.text (str "invoke") ≠ str "random" ∧ (o1.text (str "match") = str "wildcard" → p1 = str "p.*") := by
      intro e1 he1 s1 q1 o1 p1 order1 rnd1 h1
      simp only [run, exec, List.mem_cons, List.not_mem_nil, or_false] at he1
      rcases he1 with rfl | rfl | rfl | rfl | rfl | rfl | rfl | rfl | rfl <;>
        simp only [reg, regBoth, callIn, reduceCtorEq, Op.receive.injEq, Msg.register.injEq, false_and, and_false] at h1 <;>
        obtain ⟨-, ⟨-, rfl, rfl⟩, -⟩ := h1 <;>
        first | exact ⟨by decide, fun _ => rfl⟩ | exact ⟨by decide, fun m1 => absurd m1 (by decide)⟩
    refine ⟨fun e he s q o p order rnd hop => (key e he s q o p order rnd hop).1, ?_⟩
    intro e he s q o u a k bin order rnd hop e1 he1 s1 q1 o1 p1 order1 rnd1 h1 m1 e2 he2 s2 q2 o2 p2 order2 rnd2 h2 m2 _ _
    rw [(key e1 he1 s1 q1 o1 p1 order1 rnd1 h1).2 m1, (key e2 he2 s2 q2 o2 p2 order2 rnd2 h2).2 m2]

/-- **C141 is false** for dealers: two registered patterns match the called procedure, and it is a matter of chance which of the two is invoked; and with the
policy "random" it is meant to be. -/
theorem C141_dealer_chance :
    (∃ h h' b b', Hist PathMatch.wildcardMatch h b ∧ Hist PathMatch.wildcardMatch h' b' ∧ sameCalls h h' ∧
      (∀ e ∈ h, ∀ s q o p order rnd, e.op = .receive s (.register q o p) order rnd → o.text (str "invoke") ≠ str "random") ∧
      (h.head?.bind Event.invocation?).map (·.2.2) = some 1 ∧ (h'.head?.bind Event.invocation?).map (·.2.2) = some 2) ∧
    (∃ h h' b b', Hist PathMatch.wildcardMatch h b ∧ Hist PathMatch.wildcardMatch h' b' ∧ sameCalls h h' ∧
      (∀ e ∈ h, ∀ s q o p order rnd, e.op = .receive s (.register q o p) order rnd → o.text (str "match") ≠ str "wildcard") ∧
      (h.head?.bind Event.invocation?).map (·.2.2) = some 1 ∧ (h'.head?.bind Event.invocation?).map (·.2.2) = some 2) := by
  constructor
  · refine ⟨_, _, _, _,
      hist_run [.add (who 1), .add (who 2), regPattern 1 "a.*" "wildcard", regPattern 2 "*.b" "wildcard", callIn 2 7 "a.b" ["a.*", "*.b"] 0] (by decide +kernel),
      hist_run [.add (who 1), .add (who 2), regPattern 1 "a.*" "wildcard", regPattern 2 "*.b" "wildcard", callIn 2 7 "a.b" ["*.b", "a.*"] 0] (by decide +kernel),
      ?_, ?_, by decide +kernel, by decide +kernel⟩
    · simp [sameCalls, run, exec, Op.same, regPattern, callIn]
    · intro e1 he1 s1 q1 o1 p1 order1 rnd1 h1
      simp only [run, exec, List.mem_cons, List.not_mem_nil, or_false] at he1
      rcases he1 with rfl | rfl | rfl | rfl | rfl <;>
        simp only [regPattern, callIn, reduceCtorEq, Op.receive.injEq, Msg.register.injEq, false_and, and_false] at h1 <;>
        obtain ⟨-, ⟨-, rfl, rfl⟩, -⟩ := h1 <;> decide
  · refine ⟨_, _, _, _,
      hist_run [.add (who 1), .add (who 2), regWith 1 "p" "random", regWith 2 "p" "random", callIn 2 7 "p" [] 0] (by decide +kernel),
      hist_run [.add (who 1), .add (who 2), regWith 1 "p" "random", regWith 2 "p" "random", callIn 2 7 "p" [] 1] (by decide +kernel),
      ?_, ?_, by decide +kernel, by decide +kernel⟩
    · simp [sameCalls, run, exec, Op.same, regWith, callIn]
    · intro e1 he1 s1 q1 o1 p1 order1 rnd1 h1
      simp only [run, exec, List.mem_cons, List.not_mem_nil, or_false] at he1
      rcases he1 with rfl | rfl | rfl | rfl | rfl <;>
        simp only [regWith, callIn, reduceCtorEq, Op.receive.injEq, Msg.register.injEq, false_and, and_false] at h1 <;>
        obtain ⟨-, ⟨-, rfl, rfl⟩, -⟩ := h1 <;> decide

end Wamp.Dealer
