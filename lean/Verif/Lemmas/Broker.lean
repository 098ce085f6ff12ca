import Verif.Spec.Broker
import Verif.Lemmas.Base
/-!
# The broker invariant
-/
namespace Wamp.Broker

/-- What relates a history below the wrap-around to the state. -/
structure Inv (h : List Event) (b : State) : Prop where
  sess : ∀ s, b.sessions s = session h s
  bys : ∀ s, (b.bySession s).isSome = (session h s).isSome
  top : ∀ t a, b.byTopic t = some a → (b.heap a).topic = t ∧ a < b.next ∧ (b.heap a).subscribers ≠ [] ∧
    (b.heap a).subscribers.Nodup ∧ 1 ≤ (b.heap a).id ∧ (b.heap a).id ≤ b.idGen
  cur : ∀ s t i, current h s t = some i ↔ ∃ a, b.byTopic t = some a ∧ (b.heap a).id = i ∧ s ∈ (b.heap a).subscribers
  ses : ∀ s m i a, b.bySession s = some m → m.get i = some a →
    b.byTopic (b.heap a).topic = some a ∧ (b.heap a).id = i ∧ s ∈ (b.heap a).subscribers
  nod : ∀ s m, b.bySession s = some m → m.keys.Nodup
  ses' : ∀ t a s, b.byTopic t = some a → s ∈ (b.heap a).subscribers → ∃ m, b.bySession s = some m ∧ m.get (b.heap a).id = some a
  ids : ∀ t a t' a', b.byTopic t = some a → b.byTopic t' = some a' → (b.heap a).id = (b.heap a').id → t = t'
  pol : ∀ t a, b.byTopic t = some a → ∃ p, policy h (b.heap a).id = some p ∧ (b.heap a).mtch = normMatch p
  polb : ∀ i p, policy h i = some p → i ≤ b.idGen
  tre : ∀ t a, b.tree.get t = some a ↔ b.byTopic t = some a ∧ (b.heap a).mtch = matchPrefix ∧ intact h t
  wcs : ∀ t a, b.wc.get t = some a ↔ b.byTopic t = some a ∧ (b.heap a).mtch = matchWildcard ∧ intact h t
  gen : b.idGen ≤ h.length
  det : b.details = disclosed h

/-- Events without effect. -/
structure Quiet (e : Event) : Prop where
  q1 : ∀ h s, session (e :: h) s = session h s
  q2 : ∀ h s t, current (e :: h) s t = current h s t
  q3 : ∀ h i, policy (e :: h) i = policy h i
  q4 : ∀ h t, intact (e :: h) t = intact h t
  q5 : ∀ h, disclosed (e :: h) = disclosed h

theorem quiet_fail (op : Op) (hop : ∀ on, op ≠ .disclose on) : Quiet ⟨op, .err⟩ ∧ Quiet ⟨op, .panic⟩ := by
  constructor <;> constructor <;> intros <;> cases op <;> first
    | rfl
    | exact absurd rfl (hop _)
    | (rename_i m; cases m <;> rfl)
    | (rename_i m _; cases m <;> rfl)
    | (rename_i m _ _; cases m <;> rfl)
    | (rename_i m _ _ _; cases m <;> rfl)
    | (rename_i m _ _ _ _; cases m <;> rfl)

theorem quiet_publish (s q o t a k wo so r) : Quiet ⟨.publish s q o t a k wo so, r⟩ := by
  constructor <;> intros <;> cases r <;> rfl

theorem quiet_has (t r) : Quiet ⟨.has t, r⟩ := by
  constructor <;> intros <;> cases r <;> rfl

theorem Inv.quiet {h : List Event} {b : State} (hi : Inv h b) {e : Event} (q : Quiet e) : Inv (e :: h) b where
  sess := by intro s; rw [q.q1]; exact hi.sess s
  bys := by intro s; rw [q.q1]; exact hi.bys s
  top := hi.top
  cur := by intro s t i; rw [q.q2]; exact hi.cur s t i
  ses := hi.ses
  nod := hi.nod
  ses' := hi.ses'
  ids := hi.ids
  pol := by intro t a; rw [q.q3]; exact hi.pol t a
  polb := by intro i p; rw [q.q3]; exact hi.polb i p
  tre := by intro t a; rw [q.q4]; exact hi.tre t a
  wcs := by intro t a; rw [q.q4]; exact hi.wcs t a
  gen := Nat.le_succ_of_le hi.gen
  det := by rw [q.q5]; exact hi.det

theorem Inv.bump {h : List Event} {b : State} (hi : Inv h b) {e : Event} (q : Quiet e) :
    Inv (e :: h) { b with idGen := b.idGen + 1 } :=
  let hq := hi.quiet q
  { sess := hq.sess, bys := hq.bys, cur := hq.cur, ses := hq.ses, nod := hq.nod, ses' := hq.ses', ids := hq.ids, pol := hq.pol
    tre := hq.tre, wcs := hq.wcs, det := hq.det
    top := fun t a h => by obtain ⟨h1, h2, h3, h4, h5, h6⟩ := hq.top t a h; exact ⟨h1, h2, h3, h4, h5, Nat.le_succ_of_le h6⟩
    polb := fun i p h => Nat.le_succ_of_le (hq.polb i p h)
    gen := by have := hi.gen; simp only [List.length_cons]; omega }

theorem live_iff {h : List Event} {b : State} (hi : Inv h b) (t : Str) : live h t ↔ ∃ a, b.byTopic t = some a := by
  constructor
  · rintro ⟨s, i, hc⟩
    obtain ⟨a, h1, -, -⟩ := (hi.cur s t i).1 hc
    exact ⟨a, h1⟩
  · rintro ⟨a, ha⟩
    obtain ⟨-, -, h3, -, -, -⟩ := hi.top t a ha
    obtain ⟨s, hs⟩ := List.exists_mem_of_ne_nil _ h3
    exact ⟨s, _, (hi.cur s t _).2 ⟨a, ha, rfl, hs⟩⟩

theorem nextID_small {n : Nat} (h : n < maxID) : nextID n = (n + 1, n + 1) := by
  simp [nextID, Nat.ne_of_lt h]

theorem init_inv : Inv [] init where
  sess := fun _ => rfl
  bys := fun _ => rfl
  top := by simp [init]
  cur := by simp [init, current]
  ses := by simp [init]
  nod := by simp [init]
  ses' := by simp [init]
  ids := by simp [init]
  pol := by simp [init]
  polb := by simp [policy]
  tre := by simp [init, AMap.get]
  wcs := by simp [init, AMap.get]
  gen := Nat.le_refl 0
  det := rfl

theorem add_inv {h : List Event} {b : State} (hi : Inv h b) (w) (d : SessionDetails) :
    Inv (⟨.add d, (step w b (.add d)).2⟩ :: h) (step w b (.add d)).1 := by
  simp only [step, addSession]
  split
  · exact hi.quiet (quiet_fail (.add d) (by simp)).1
  · rename_i hn
    have hn : b.bySession d.id = none := by simpa using hn
    have e1 : ∀ s, session (⟨.add d, .ok .unit⟩ :: h) s = if d.id = s then some d else session h s := fun _ => rfl
    have old : ∀ s m, b.bySession s = some m → (b.bySession.set d.id []) s = some m := by
      intro s m hs
      rw [FMap.set_other]
      · exact hs
      · rintro rfl; rw [hn] at hs; cases hs
    have new : ∀ s m, (b.bySession.set d.id []) s = some m → m = [] ∨ b.bySession s = some m := by
      intro s m hs
      rw [FMap.set_apply] at hs
      split at hs
      · left; cases hs; rfl
      · exact .inr hs
    refine { hi with sess := ?_, bys := ?_, ses := ?_, nod := ?_, ses' := ?_, gen := Nat.le_succ_of_le hi.gen, .. }
    · intro s
      simp only [Res.map_ok, e1, FMap.set_apply, hi.sess, eq_comm (a := s)]
    · intro s
      simp only [Res.map_ok, e1, FMap.set_apply, eq_comm (a := s)]
      split
      · rfl
      · exact hi.bys s
    · intro s m i a hs hg
      rcases new s m hs with rfl | hs
      · simp [AMap.get] at hg
      · exact hi.ses s m i a hs hg
    · intro s m hs
      rcases new s m hs with rfl | hs
      · simp [AMap.keys]
      · exact hi.nod s m hs
    · intro t a s ha hs
      obtain ⟨m, h1, h2⟩ := hi.ses' t a s ha hs
      exact ⟨m, old s m h1, h2⟩

theorem disclose_inv {h : List Event} {b : State} (hi : Inv h b) (w) (on : Bool) :
    Inv (⟨.disclose on, (step w b (.disclose on)).2⟩ :: h) (step w b (.disclose on)).1 :=
  { hi with gen := Nat.le_succ_of_le hi.gen, det := rfl, sess := hi.sess, bys := hi.bys }

/-- Details of an EVENT are always available. -/
theorem eventDetails_ok {h : List Event} {b : State} (hi : Inv h b) {s : Nat} {m} (hs : b.bySession s = some m) (t : Str) :
    ∃ d, eventDetails b s t = .ok d := by
  have h1 := hi.bys s
  rw [hs, ← hi.sess s] at h1
  simp only [eventDetails]
  cases hb : b.sessions s with
  | none => rw [hb] at h1; cases h1
  | some p => split <;> exact ⟨_, rfl⟩

theorem publish_inv {h : List Event} {b : State} (hi : Inv h b) (hlen : h.length < maxID) (w) (s q o t a k wo so) :
    Inv (⟨.publish s q o t a k wo so, (step w b (.publish s q o t a k wo so)).2⟩ :: h)
      (step w b (.publish s q o t a k wo so)).1 := by
  have hg : nextID b.idGen = (b.idGen + 1, b.idGen + 1) := nextID_small (Nat.lt_of_le_of_lt hi.gen hlen)
  simp only [step, publish, hg]
  cases hb : b.bySession s with
  | none => exact hi.quiet (quiet_publish ..)
  | some m =>
    simp only
    split
    · exact hi.bump (quiet_publish ..)
    · split
      · exact hi.bump (quiet_publish ..)
      · obtain ⟨d, hd⟩ := eventDetails_ok hi hb t
        rw [hd]
        exact hi.bump (quiet_publish ..)

theorem subscribe_inv {h : List Event} {b : State} (hi : Inv h b) (hlen : h.length < maxID) (s q : Nat) (o : GoMap) (t : Str) :
    Inv (⟨.receive s (.subscribe q o t), (subscribe b s q o t).2.map fun x => .msg x.1 x.2⟩ :: h) (subscribe b s q o t).1 := by
  have hlt : b.idGen < maxID := Nat.lt_of_le_of_lt hi.gen hlen
  simp only [subscribe]
  cases hm : b.bySession s with
  | none => exact hi.quiet (quiet_fail (.receive s _) (by simp)).1
  | some m =>
    simp only
    cases ht : b.byTopic t with
    | some p =>
      simp only [newSubscribed, Res.map_ok]
      obtain ⟨t1, t2, t3, t4, t5, t6⟩ := hi.top t p ht
      obtain ⟨pl, p1, p2⟩ := hi.pol t p ht
      have hlive : live h t := (live_iff hi t).2 ⟨p, ht⟩
      have hsub : ∀ a, hset b.heap p { b.heap p with subscribers := if (b.heap p).subscribers.contains s
          then (b.heap p).subscribers else (b.heap p).subscribers ++ [s] } a =
          { b.heap a with subscribers := if a = p ∧ s ∉ (b.heap p).subscribers then (b.heap p).subscribers ++ [s] else (b.heap a).subscribers } := by
        intro a
        simp only [hset]
        by_cases e : a = p
        · subst e; by_cases hc : s ∈ (b.heap a).subscribers <;> simp [hc]
        · simp [e]
      have hmem : ∀ a x, x ∈ (if a = p ∧ s ∉ (b.heap p).subscribers then (b.heap p).subscribers ++ [s] else (b.heap a).subscribers) ↔
          x ∈ (b.heap a).subscribers ∨ (a = p ∧ x = s) := by
        intro a x
        by_cases e : a = p
        · subst e
          by_cases hc : s ∈ (b.heap a).subscribers
          · simp only [hc, not_true, and_false, if_false, true_and]
            constructor
            · exact .inl
            · rintro (h | rfl)
              · exact h
              · exact hc
          · simp [hc]
        · simp [e]
      refine ⟨hi.sess, ?_, ?_, ?_, ?_, ?_, ?_, ?_, ?_, ?_, ?_, ?_, Nat.le_succ_of_le hi.gen, hi.det⟩
      · intro s'
        simp only [FMap.set_apply]
        split
        · rename_i e; subst e
          have := hi.bys s'; rw [hm] at this; exact this
        · exact hi.bys s'
      · intro t' a ha
        obtain ⟨h1, h2, h3, h4, h5, h6⟩ := hi.top t' a ha
        simp only [hsub]
        refine ⟨h1, h2, ?_, ?_, h5, h6⟩
        · split
          · simp
          · exact h3
        · split
          · rename_i e
            rw [List.nodup_append]
            refine ⟨t4, by simp, ?_⟩
            intro x hx y hy
            simp only [List.mem_singleton] at hy
            subst hy; rintro rfl; exact e.2 hx
          · exact h4
      · intro s' t' i
        simp only [hsub, hmem]
        simp only [current]
        by_cases e : s = s' ∧ t = t'
        · obtain ⟨rfl, rfl⟩ := e
          simp only [and_self, if_true, ht, Option.some.injEq, exists_eq_left', and_self, or_true, and_true]
        · rw [if_neg e, hi.cur]
          constructor
          · rintro ⟨a, h1, h2, h3⟩; exact ⟨a, h1, h2, .inl h3⟩
          · rintro ⟨a, h1, h2, h3 | ⟨rfl, rfl⟩⟩
            · exact ⟨a, h1, h2, h3⟩
            · exact absurd ⟨rfl, by rw [← t1]; exact (hi.top t' a h1).1⟩ e
      · intro s' m' i a hs hg
        simp only [FMap.set_apply] at hs
        simp only [hsub, hmem]
        split at hs
        · rename_i e; subst e; cases hs
          rw [AMap.get_set] at hg
          split at hg
          · rename_i e; cases hg
            exact ⟨t1.symm ▸ ht, e.symm, .inr ⟨rfl, rfl⟩⟩
          · obtain ⟨h1, h2, h3⟩ := hi.ses _ m i a hm hg
            exact ⟨h1, h2, .inl h3⟩
        · obtain ⟨h1, h2, h3⟩ := hi.ses s' m' i a hs hg
          exact ⟨h1, h2, .inl h3⟩
      · intro s' m' hs
        simp only [FMap.set_apply] at hs
        split at hs
        · cases hs; exact AMap.nodup_set (hi.nod _ m hm) _ _
        · exact hi.nod s' m' hs
      · intro t' a s' ha hs
        simp only [hsub, hmem] at hs ⊢
        simp only [FMap.set_apply]
        rcases hs with hs | ⟨rfl, rfl⟩
        · obtain ⟨m', h1, h2⟩ := hi.ses' t' a s' ha hs
          split
          · rename_i e; subst e
            rw [hm] at h1; cases h1
            refine ⟨_, rfl, ?_⟩
            rw [AMap.get_set]
            split
            · rename_i e
              have : t' = t := hi.ids t' a t p ha ht e
              subst this; rw [ht] at ha; exact ha
            · exact h2
          · exact ⟨m', h1, h2⟩
        · rw [if_pos rfl]
          exact ⟨_, rfl, by rw [AMap.get_set, if_pos rfl]⟩
      · intro t1 a1 t2 a2 h1 h2 h3
        simp only [hsub] at h3
        exact hi.ids t1 a1 t2 a2 h1 h2 h3
      · intro t' a ha
        obtain ⟨pl', q1, q2⟩ := hi.pol t' a ha
        simp only [hsub]
        exact ⟨pl', by simp only [policy, q1], q2⟩
      · intro i pl' hp
        simp only [policy] at hp
        split at hp
        · rename_i p' hp'; exact hi.polb i _ hp'
        · split at hp
          · rename_i e; subst e; exact t6
          · cases hp
      · intro t' a
        simp only [hsub]
        rw [hi.tre]
        have : intact (⟨.receive s (.subscribe q o t), .ok (.msg (.subscribed q (b.heap p).id) s)⟩ :: h) t' ↔ intact h t' := by
          simp only [intact]
          constructor
          · rintro (⟨rfl, hn⟩ | h)
            · exact absurd hlive hn
            · exact h
          · exact .inr
        rw [this]
      · intro t' a
        simp only [hsub]
        rw [hi.wcs]
        have : intact (⟨.receive s (.subscribe q o t), .ok (.msg (.subscribed q (b.heap p).id) s)⟩ :: h) t' ↔ intact h t' := by
          simp only [intact]
          constructor
          · rintro (⟨rfl, hn⟩ | h)
            · exact absurd hlive hn
            · exact h
          · exact .inr
        rw [this]
    | none =>
      simp only [newSubscribed, Res.map_ok, nextID_small hlt]
      have hnl : ¬live h t := by rw [live_iff hi]; simp [ht]
      have hfresh : ∀ t' a, b.byTopic t' = some a → a ≠ b.next ∧ (b.heap a).id ≠ b.idGen + 1 := by
        intro t' a ha
        obtain ⟨h1, h2, h3, h4, h5, h6⟩ := hi.top t' a ha
        exact ⟨Nat.ne_of_lt h2, by omega⟩
      have hnp : policy h (b.idGen + 1) = none := by
        cases hp : policy h (b.idGen + 1) with
        | none => rfl
        | some x => have := hi.polb _ _ hp; omega
      have hold : ∀ x a, a ≠ b.next → hset b.heap b.next x a = b.heap a := by intro x a ha; simp [hset, ha]
      have hnew : ∀ x, hset b.heap b.next x b.next = x := by intro x; simp [hset]
      have hbt : ∀ t' a, (b.byTopic.set t b.next) t' = some a ↔ (t' = t ∧ a = b.next) ∨ (t' ≠ t ∧ b.byTopic t' = some a) := by
        intro t' a
        rw [FMap.set_apply]
        by_cases e : t' = t
        · subst e; simp [eq_comm]
        · simp [e]
      refine ⟨hi.sess, ?_, ?_, ?_, ?_, ?_, ?_, ?_, ?_, ?_, ?_, ?_, Nat.succ_le_succ hi.gen, hi.det⟩
      · intro s'
        simp only [FMap.set_apply]
        split
        · rename_i e; subst e
          have := hi.bys s'; rw [hm] at this; exact this
        · exact hi.bys s'
      · intro t' a ha
        rcases (hbt t' a).1 ha with ⟨rfl, rfl⟩ | ⟨hne, ha⟩
        · simp only [hnew]
          exact ⟨trivial, Nat.lt_succ_self _, by simp, by simp, by omega, Nat.le_refl _⟩
        · obtain ⟨h1, h2, h3, h4, h5, h6⟩ := hi.top t' a ha
          simp only [hold _ a (hfresh t' a ha).1]
          exact ⟨h1, Nat.lt_succ_of_lt h2, h3, h4, h5, Nat.le_succ_of_le h6⟩
      · intro s' t' i
        simp only [current]
        by_cases e : t' = t
        · subst e
          have hno : current h s' t' = none := by
            cases hc : current h s' t' with
            | none => rfl
            | some x => exact absurd ⟨s', x, hc⟩ hnl
          by_cases e2 : s = s'
          · subst e2
            simp only [and_self, if_true, Option.some.injEq]
            constructor
            · rintro rfl; exact ⟨b.next, FMap.set_same .., by simp [hnew], by simp [hnew]⟩
            · rintro ⟨a, h1, h2, h3⟩
              rcases (hbt t' a).1 h1 with ⟨-, rfl⟩ | ⟨hne, -⟩
              · simpa [hnew] using h2
              · exact absurd rfl hne
          · simp only [e2, false_and, if_false, hno]
            constructor
            · intro h; cases h
            · rintro ⟨a, h1, h2, h3⟩
              rcases (hbt t' a).1 h1 with ⟨-, rfl⟩ | ⟨hne, -⟩
              · simp only [hnew, List.mem_singleton] at h3; exact absurd h3.symm e2
              · exact absurd rfl hne
        · have e' : ¬(s = s' ∧ t = t') := fun x => e x.2.symm
          rw [if_neg e', hi.cur]
          constructor
          · rintro ⟨a, h1, h2, h3⟩
            have := hold ⟨b.idGen + 1, t, [s], normMatch (o.text optMatch)⟩ a (hfresh t' a h1).1
            exact ⟨a, (hbt t' a).2 (.inr ⟨e, h1⟩), by rw [this]; exact h2, by rw [this]; exact h3⟩
          · rintro ⟨a, h1, h2, h3⟩
            rcases (hbt t' a).1 h1 with ⟨rfl, -⟩ | ⟨-, h1⟩
            · exact absurd rfl e
            · have := hold ⟨b.idGen + 1, t, [s], normMatch (o.text optMatch)⟩ a (hfresh t' a h1).1
              exact ⟨a, h1, by rw [this] at h2; exact h2, by rw [this] at h3; exact h3⟩
      · intro s' m' i a hs hg
        have oldcase : ∀ s' m', b.bySession s' = some m' → AMap.get m' i = some a → _ := fun s' m' => hi.ses s' m' i a
        have fin : (b.byTopic (b.heap a).topic = some a ∧ (b.heap a).id = i ∧ s' ∈ (b.heap a).subscribers) →
            (b.byTopic.set t b.next) (hset b.heap b.next ⟨b.idGen + 1, t, [s], normMatch (o.text optMatch)⟩ a).topic = some a ∧
            (hset b.heap b.next ⟨b.idGen + 1, t, [s], normMatch (o.text optMatch)⟩ a).id = i ∧
            s' ∈ (hset b.heap b.next ⟨b.idGen + 1, t, [s], normMatch (o.text optMatch)⟩ a).subscribers := by
          rintro ⟨h1, h2, h3⟩
          rw [hold _ a (hfresh _ a h1).1]
          refine ⟨(hbt _ _).2 (.inr ⟨?_, h1⟩), h2, h3⟩
          intro e; rw [e, ht] at h1; cases h1
        simp only [FMap.set_apply] at hs
        split at hs
        · rename_i e; subst e; cases hs
          rw [AMap.get_set] at hg
          split at hg
          · rename_i e; cases hg; simp [hnew, e]
          · exact fin (oldcase _ _ hm hg)
        · exact fin (oldcase _ _ hs hg)
      · intro s' m' hs
        simp only [FMap.set_apply] at hs
        split at hs
        · cases hs; exact AMap.nodup_set (hi.nod _ m hm) _ _
        · exact hi.nod s' m' hs
      · intro t' a s' ha hs
        simp only [FMap.set_apply]
        rcases (hbt t' a).1 ha with ⟨rfl, rfl⟩ | ⟨hne, ha⟩
        · simp only [hnew, List.mem_singleton] at hs ⊢
          subst hs
          rw [if_pos rfl]
          exact ⟨_, rfl, by rw [AMap.get_set, if_pos rfl]⟩
        · have hf := hfresh t' a ha
          simp only [hold _ a hf.1] at hs ⊢
          obtain ⟨m', h1, h2⟩ := hi.ses' t' a s' ha hs
          split
          · rename_i e; subst e
            rw [hm] at h1; cases h1
            exact ⟨_, rfl, by rw [AMap.get_set, if_neg hf.2]; exact h2⟩
          · exact ⟨m', h1, h2⟩
      · intro t1 a1 t2 a2 h1 h2 h3
        simp only at h3
        rcases (hbt t1 a1).1 h1 with ⟨e1, e1'⟩ | ⟨hne1, k1⟩ <;> rcases (hbt t2 a2).1 h2 with ⟨e2, e2'⟩ | ⟨hne2, k2⟩
        · rw [e1, e2]
        · have hf := hfresh t2 a2 k2
          rw [e1', hnew, hold _ a2 hf.1] at h3
          exact absurd h3.symm hf.2
        · have hf := hfresh t1 a1 k1
          rw [e2', hnew, hold _ a1 hf.1] at h3
          exact absurd h3 hf.2
        · rw [hold _ a1 (hfresh t1 a1 k1).1, hold _ a2 (hfresh t2 a2 k2).1] at h3
          exact hi.ids t1 a1 t2 a2 k1 k2 h3
      · intro t' a ha
        rcases (hbt t' a).1 ha with ⟨rfl, rfl⟩ | ⟨hne, ha⟩
        · simp only [hnew, policy, hnp, if_true]
          exact ⟨_, rfl, rfl⟩
        · obtain ⟨pl', q1, q2⟩ := hi.pol t' a ha
          simp only [hold _ a (hfresh t' a ha).1, policy, q1]
          exact ⟨pl', rfl, q2⟩
      · intro i pl' hp
        simp only [policy] at hp
        split at hp
        · rename_i p' hp'; exact Nat.le_succ_of_le (hi.polb i _ hp')
        · split at hp
          · rename_i e; subst e; exact Nat.le_refl _
          · cases hp
      · intro t' a
        have hint : intact (⟨.receive s (.subscribe q o t), .ok (.msg (.subscribed q (b.idGen + 1)) s)⟩ :: h) t' ↔ t' = t ∨ intact h t' := by
          simp only [intact]
          constructor
          · rintro (⟨rfl, -⟩ | h)
            · exact .inl rfl
            · exact .inr h
          · rintro (rfl | h)
            · exact .inl ⟨rfl, hnl⟩
            · exact .inr h
        simp only [hint, hbt]
        have hg : (if normMatch (o.text optMatch) = matchPrefix then b.tree.set t b.next else b.tree).get t' =
            if t' = t ∧ normMatch (o.text optMatch) = matchPrefix then some b.next else b.tree.get t' := by
          split <;> simp_all [AMap.get_set]
        rw [hg]
        by_cases e : t' = t
        · subst e
          have : ∀ a, b.tree.get t' ≠ some a := by
            intro a ha; have := ((hi.tre t' a).1 ha).1; rw [ht] at this; cases this
          by_cases e2 : normMatch (o.text optMatch) = matchPrefix
          · simp only [e2, and_self, if_true, Option.some.injEq, true_and, ne_eq, not_true_eq_false, false_and, or_false, true_or, and_true]
            constructor
            · rintro rfl; simp [hnew]
            · rintro ⟨rfl, -⟩; rfl
          · simp only [e2, and_false, if_false, true_and, ne_eq, not_true_eq_false, false_and, or_false, true_or, and_true]
            constructor
            · intro h; exact absurd h (this a)
            · rintro ⟨rfl, h⟩; rw [hnew] at h; exact absurd h e2
        · simp only [e, false_and, if_false, false_or, ne_eq, not_false_eq_true, true_and]
          rw [hi.tre]
          constructor
          · rintro ⟨h1, h2, h3⟩; rw [hold _ a (hfresh t' a h1).1]; exact ⟨h1, h2, h3⟩
          · rintro ⟨h1, h2, h3⟩; rw [hold _ a (hfresh t' a h1).1] at h2; exact ⟨h1, h2, h3⟩
      · intro t' a
        have hint : intact (⟨.receive s (.subscribe q o t), .ok (.msg (.subscribed q (b.idGen + 1)) s)⟩ :: h) t' ↔ t' = t ∨ intact h t' := by
          simp only [intact]
          constructor
          · rintro (⟨rfl, -⟩ | h)
            · exact .inl rfl
            · exact .inr h
          · rintro (rfl | h)
            · exact .inl ⟨rfl, hnl⟩
            · exact .inr h
        simp only [hint, hbt]
        have hg : (if normMatch (o.text optMatch) = matchWildcard then b.wc.set t b.next else b.wc).get t' =
            if t' = t ∧ normMatch (o.text optMatch) = matchWildcard then some b.next else b.wc.get t' := by
          split <;> simp_all [AMap.get_set]
        rw [hg]
        by_cases e : t' = t
        · subst e
          have : ∀ a, b.wc.get t' ≠ some a := by
            intro a ha; have := ((hi.wcs t' a).1 ha).1; rw [ht] at this; cases this
          by_cases e2 : normMatch (o.text optMatch) = matchWildcard
          · simp only [e2, and_self, if_true, Option.some.injEq, true_and, ne_eq, not_true_eq_false, false_and, or_false, true_or, and_true]
            constructor
            · rintro rfl; simp [hnew]
            · rintro ⟨rfl, -⟩; rfl
          · simp only [e2, and_false, if_false, true_and, ne_eq, not_true_eq_false, false_and, or_false, true_or, and_true]
            constructor
            · intro h; exact absurd h (this a)
            · rintro ⟨rfl, h⟩; rw [hnew] at h; exact absurd h e2
        · simp only [e, false_and, if_false, false_or, ne_eq, not_false_eq_true, true_and]
          rw [hi.wcs]
          constructor
          · rintro ⟨h1, h2, h3⟩; rw [hold _ a (hfresh t' a h1).1]; exact ⟨h1, h2, h3⟩
          · rintro ⟨h1, h2, h3⟩; rw [hold _ a (hfresh t' a h1).1] at h2; exact ⟨h1, h2, h3⟩

/-! ### Leaving -/

/-- `b` is `b0` after session `s` left the subscriptions at the addresses in `P` (session tables not included). -/
structure Left (b0 : State) (s : Nat) (P : List Nat) (b : State) : Prop where
  heap : ∀ a, b.heap a = if a ∈ P then { b0.heap a with subscribers := (b0.heap a).subscribers.filter (· ≠ s) } else b0.heap a
  byTopic : ∀ t a, b.byTopic t = some a ↔ b0.byTopic t = some a ∧ ¬(a ∈ P ∧ (b0.heap a).subscribers.filter (· ≠ s) = [])
  tree : ∀ t a, b.tree.get t = some a ↔ b0.tree.get t = some a ∧ ¬∃ a ∈ P, (b0.heap a).topic = t ∧ (b0.heap a).mtch = matchPrefix
  wc : ∀ t a, b.wc.get t = some a ↔ b0.wc.get t = some a ∧ ¬∃ a ∈ P, (b0.heap a).topic = t ∧ (b0.heap a).mtch = matchWildcard
  next : b.next = b0.next
  idGen : b.idGen = b0.idGen
  details : b.details = b0.details

theorem left_inv {h : List Event} {b0 b : State} (hi : Inv h b0) {s : Nat} {m : AMap Nat Nat} (hm : b0.bySession s = some m)
    {P : List Nat} (hP : ∀ a ∈ P, ∃ i, m.get i = some a) (hl : Left b0 s P b) {e : Event}
    (hses : ∀ s', b.sessions s' = session (e :: h) s') (hbys : ∀ s', (b.bySession s').isSome = (session (e :: h) s').isSome)
    (hoth : ∀ s', s' ≠ s → b.bySession s' = b0.bySession s')
    (hself : ∀ m', b.bySession s = some m' → m'.keys.Nodup ∧ ∀ i a, m'.get i = some a → m.get i = some a ∧ a ∉ P)
    (hkeep : ∀ i a, m.get i = some a → a ∉ P → ∃ m', b.bySession s = some m' ∧ m'.get i = some a)
    (hcur : ∀ s' t i, current (e :: h) s' t = some i ↔ current h s' t = some i ∧ ¬(s' = s ∧ ∃ a ∈ P, b0.byTopic t = some a))
    (hint : ∀ t, intact (e :: h) t ↔ intact h t ∧ ¬∃ a ∈ P, b0.byTopic t = some a)
    (hpol : ∀ i, policy (e :: h) i = policy h i) (hdis : disclosed (e :: h) = disclosed h) : Inv (e :: h) b := by
  have hPt : ∀ a ∈ P, b0.byTopic (b0.heap a).topic = some a := by
    intro a ha; obtain ⟨i, hg⟩ := hP a ha; exact (hi.ses s m i a hm hg).1
  have f1 : ∀ a, (b.heap a).id = (b0.heap a).id := by intro a; rw [hl.heap]; split <;> rfl
  have f2 : ∀ a, (b.heap a).topic = (b0.heap a).topic := by intro a; rw [hl.heap]; split <;> rfl
  have f3 : ∀ a, (b.heap a).mtch = (b0.heap a).mtch := by intro a; rw [hl.heap]; split <;> rfl
  have f4 : ∀ a x, x ∈ (b.heap a).subscribers ↔ x ∈ (b0.heap a).subscribers ∧ ¬(a ∈ P ∧ x = s) := by
    intro a x; rw [hl.heap]; split
    · rename_i h; simp [h]
    · rename_i h; simp [h]
  have nonempty : ∀ a x, x ∈ (b.heap a).subscribers → ¬(a ∈ P ∧ (b0.heap a).subscribers.filter (· ≠ s) = []) := by
    intro a x hx hc
    have := hl.heap a
    rw [if_pos hc.1] at this
    rw [this] at hx
    simp only [hc.2] at hx
    cases hx
  have idx : ∀ t a, b0.byTopic t = some a → ((∃ a' ∈ P, b0.byTopic t = some a') ↔ a ∈ P) := by
    intro t a ha
    constructor
    · rintro ⟨a', h1, h2⟩; rw [ha] at h2; cases h2; exact h1
    · intro h; exact ⟨a, h, ha⟩
  have idx2 : ∀ t a (pl : Str), b0.byTopic t = some a → (b0.heap a).mtch = pl →
      ((∃ a' ∈ P, (b0.heap a').topic = t ∧ (b0.heap a').mtch = pl) ↔ a ∈ P) := by
    intro t a pl ha hpl
    constructor
    · rintro ⟨a', h1, rfl, h3⟩
      rw [hPt a' h1] at ha; cases ha; exact h1
    · intro h; exact ⟨a, h, (hi.top t a ha).1, hpl⟩
  refine ⟨hses, hbys, ?_, ?_, ?_, ?_, ?_, ?_, ?_, ?_, ?_, ?_, ?_, ?_⟩
  · intro t a ha
    obtain ⟨h1, h2⟩ := (hl.byTopic t a).1 ha
    obtain ⟨t1, t2, t3, t4, t5, t6⟩ := hi.top t a h1
    rw [f1, f2, hl.next, hl.idGen]
    refine ⟨t1, t2, ?_, ?_, t5, t6⟩
    · rw [hl.heap]; split
      · rename_i hp; intro e; exact h2 ⟨hp, e⟩
      · exact t3
    · rw [hl.heap]; split
      · exact t4.filter _
      · exact t4
  · intro s' t i
    rw [hcur, hi.cur]
    constructor
    · rintro ⟨⟨a, h1, h2, h3⟩, h4⟩
      have hx : s' ∈ (b.heap a).subscribers := (f4 a s').2 ⟨h3, fun ⟨ha, hs⟩ => h4 ⟨hs, a, ha, h1⟩⟩
      exact ⟨a, (hl.byTopic t a).2 ⟨h1, nonempty a s' hx⟩, by rw [f1]; exact h2, hx⟩
    · rintro ⟨a, h1, h2, h3⟩
      have k1 := ((hl.byTopic t a).1 h1).1
      have k3 := (f4 a s').1 h3
      refine ⟨⟨a, k1, by rw [f1] at h2; exact h2, k3.1⟩, ?_⟩
      rintro ⟨hs, hx⟩
      exact k3.2 ⟨(idx t a k1).1 hx, hs⟩
  · intro s' m' i a hs hg
    rw [f1, f2]
    by_cases e : s' = s
    · subst e
      obtain ⟨g1, g2⟩ := (hself m' hs).2 i a hg
      obtain ⟨k1, k2, k3⟩ := hi.ses s' m i a hm g1
      exact ⟨(hl.byTopic _ _).2 ⟨k1, fun hc => g2 hc.1⟩, k2, (f4 a s').2 ⟨k3, fun hc => g2 hc.1⟩⟩
    · rw [hoth s' e] at hs
      obtain ⟨k1, k2, k3⟩ := hi.ses s' m' i a hs hg
      have hx : s' ∈ (b.heap a).subscribers := (f4 a s').2 ⟨k3, fun hc => e hc.2⟩
      exact ⟨(hl.byTopic _ _).2 ⟨k1, nonempty a s' hx⟩, k2, hx⟩
  · intro s' m' hs
    by_cases e : s' = s
    · subst e; exact (hself m' hs).1
    · rw [hoth s' e] at hs; exact hi.nod s' m' hs
  · intro t a s' ha hs
    have k1 := ((hl.byTopic t a).1 ha).1
    have k3 := (f4 a s').1 hs
    obtain ⟨m', g1, g2⟩ := hi.ses' t a s' k1 k3.1
    rw [f1]
    by_cases e : s' = s
    · subst e
      rw [hm] at g1; cases g1
      exact hkeep _ a g2 fun hp => k3.2 ⟨hp, rfl⟩
    · exact ⟨m', by rw [hoth s' e]; exact g1, g2⟩
  · intro t1 a1 t2 a2 h1 h2 h3
    rw [f1, f1] at h3
    exact hi.ids t1 a1 t2 a2 ((hl.byTopic t1 a1).1 h1).1 ((hl.byTopic t2 a2).1 h2).1 h3
  · intro t a ha
    rw [f1, f3, hpol]
    exact hi.pol t a ((hl.byTopic t a).1 ha).1
  · intro i p hp
    rw [hpol] at hp
    rw [hl.idGen]; exact hi.polb i p hp
  · intro t a
    rw [hl.tree, hi.tre, f3, hint, hl.byTopic]
    constructor
    · rintro ⟨⟨h1, h2, h3⟩, h4⟩
      rw [idx2 t a matchPrefix h1 h2] at h4
      exact ⟨⟨h1, fun hc => h4 hc.1⟩, h2, h3, by rw [idx t a h1]; exact h4⟩
    · rintro ⟨⟨h1, -⟩, h2, h3, h4⟩
      rw [idx t a h1] at h4
      exact ⟨⟨h1, h2, h3⟩, by rw [idx2 t a matchPrefix h1 h2]; exact h4⟩
  · intro t a
    rw [hl.wc, hi.wcs, f3, hint, hl.byTopic]
    constructor
    · rintro ⟨⟨h1, h2, h3⟩, h4⟩
      rw [idx2 t a matchWildcard h1 h2] at h4
      exact ⟨⟨h1, fun hc => h4 hc.1⟩, h2, h3, by rw [idx t a h1]; exact h4⟩
    · rintro ⟨⟨h1, -⟩, h2, h3, h4⟩
      rw [idx t a h1] at h4
      exact ⟨⟨h1, h2, h3⟩, by rw [idx2 t a matchWildcard h1 h2]; exact h4⟩
  · rw [hl.idGen]; exact Nat.le_succ_of_le hi.gen
  · rw [hl.details, hdis]; exact hi.det

/-- One more subscription left. -/
theorem left_step {b0 b : State} {s : Nat} {P : List Nat} (hl : Left b0 s P b) {a : Nat} (ha : a ∉ P)
    (htop : ∀ t a', b0.byTopic t = some a' → (b0.heap a').topic = t) (hat : b0.byTopic (b0.heap a).topic = some a)
    (bs : FMap Nat (AMap Nat Nat)) :
    let sub := { b.heap a with subscribers := (b.heap a).subscribers.filter (· ≠ s) }
    Left b0 s (a :: P)
      { b with
        heap := hset b.heap a sub
        byTopic := if sub.subscribers.isEmpty then b.byTopic.del sub.topic else b.byTopic
        tree := if sub.mtch = matchPrefix then b.tree.del sub.topic else b.tree
        wc := if sub.mtch = matchWildcard then b.wc.del sub.topic else b.wc
        bySession := bs } := by
  have hb : b.heap a = b0.heap a := by rw [hl.heap, if_neg ha]
  simp only [hb]
  refine ⟨?_, ?_, ?_, ?_, hl.next, hl.idGen, hl.details⟩
  · intro a'
    simp only [hset, List.mem_cons]
    by_cases e : a' = a
    · subst e; simp
    · simp only [e, if_false, false_or]; exact hl.heap a'
  · intro t a'
    simp only
    by_cases e : a' = a
    · subst e
      split
      · rename_i hemp
        have hemp : List.filter (fun x => decide (x ≠ s)) (b0.heap a').subscribers = [] := by simpa using hemp
        rw [FMap.del_apply]
        constructor
        · intro h
          split at h
          · cases h
          · rename_i hne
            have h0 := ((hl.byTopic t a').1 h).1
            exact absurd (htop t a' h0).symm hne
        · rintro ⟨h1, h2⟩
          exact absurd ⟨by simp, hemp⟩ h2
      · rename_i hemp
        have hemp : ¬List.filter (fun x => decide (x ≠ s)) (b0.heap a').subscribers = [] := by simpa using hemp
        rw [hl.byTopic]
        constructor
        · rintro ⟨h1, -⟩; exact ⟨h1, fun hc => hemp hc.2⟩
        · rintro ⟨h1, -⟩; exact ⟨h1, fun hc => ha hc.1⟩
    · have : (if (List.filter (fun x => decide (x ≠ s)) (b0.heap a).subscribers).isEmpty = true then b.byTopic.del (b0.heap a).topic
          else b.byTopic) t = some a' ↔ b.byTopic t = some a' := by
        split
        · rw [FMap.del_apply]
          split
          · rename_i e2; subst e2
            constructor
            · intro h; cases h
            · intro h
              have := ((hl.byTopic _ _).1 h).1
              rw [hat] at this; cases this; exact absurd rfl e
          · exact Iff.rfl
        · exact Iff.rfl
      rw [this, hl.byTopic]
      simp [e]
  · intro t a'
    simp only
    have hg : (if (b0.heap a).mtch = matchPrefix then b.tree.del (b0.heap a).topic else b.tree).get t = some a' ↔
        b.tree.get t = some a' ∧ ¬((b0.heap a).topic = t ∧ (b0.heap a).mtch = matchPrefix) := by
      split
      · rename_i hm
        rw [AMap.get_del]
        by_cases e : t = (b0.heap a).topic
        · simp [e, hm]
        · simp [e, Ne.symm e]
      · rename_i hm; simp [hm]
    rw [hg, hl.tree]
    simp only [List.mem_cons, exists_eq_or_imp, not_or, and_assoc]
    constructor
    · rintro ⟨h1, h2, h3⟩; exact ⟨h1, h3, h2⟩
    · rintro ⟨h1, h2, h3⟩; exact ⟨h1, h3, h2⟩
  · intro t a'
    simp only
    have hg : (if (b0.heap a).mtch = matchWildcard then b.wc.del (b0.heap a).topic else b.wc).get t = some a' ↔
        b.wc.get t = some a' ∧ ¬((b0.heap a).topic = t ∧ (b0.heap a).mtch = matchWildcard) := by
      split
      · rename_i hm
        rw [AMap.get_del]
        by_cases e : t = (b0.heap a).topic
        · simp [e, hm]
        · simp [e, Ne.symm e]
      · rename_i hm; simp [hm]
    rw [hg, hl.wc]
    simp only [List.mem_cons, exists_eq_or_imp, not_or, and_assoc]
    constructor
    · rintro ⟨h1, h2, h3⟩; exact ⟨h1, h3, h2⟩
    · rintro ⟨h1, h2, h3⟩; exact ⟨h1, h3, h2⟩

theorem left_refl (b : State) (s : Nat) (bs : FMap Nat (AMap Nat Nat)) : Left b s [] { b with bySession := bs } :=
  ⟨by simp, by simp, by simp, by simp, rfl, rfl, rfl⟩

theorem loop_left {b0 : State} {s : Nat} (htop : ∀ t a', b0.byTopic t = some a' → (b0.heap a').topic = t) :
    ∀ (as P : List Nat) (b : State), Left b0 s P b → (as ++ P).Nodup → (∀ a ∈ as, b0.byTopic (b0.heap a).topic = some a) →
      ∃ b', removeLoop s b as = .ok b' ∧ Left b0 s (as.reverse ++ P) b' ∧ b'.bySession = b.bySession ∧ b'.sessions = b.sessions
  | [], P, b, hl, _, _ => ⟨b, rfl, by simpa using hl, rfl, rfl⟩
  | a :: as, P, b, hl, hn, ht => by
    have hn' : a ∉ P ∧ a ∉ as ∧ (as ++ P).Nodup := by
      simp only [List.cons_append, List.nodup_cons, List.mem_append, not_or] at hn
      exact ⟨hn.1.2, hn.1.1, hn.2⟩
    have hat := ht a (by simp)
    have hb : b.heap a = b0.heap a := by rw [hl.heap, if_neg hn'.1]
    have hbt : b.byTopic (b.heap a).topic = some a := by
      rw [hb]; exact (hl.byTopic _ _).2 ⟨hat, fun hc => hn'.1 hc.1⟩
    have hl1 := left_step hl hn'.1 htop hat b.bySession
    have hnd : (as ++ a :: P).Nodup := by
      rw [List.nodup_append] at hn ⊢
      rw [List.nodup_cons] at hn
      refine ⟨hn.1.2, List.nodup_cons.2 ⟨hn'.1, hn.2.1⟩, ?_⟩
      intro x hx y hy
      rcases List.mem_cons.1 hy with rfl | hy
      · rintro rfl; exact hn'.2.1 hx
      · exact hn.2.2 x (by simp [hx]) y hy
    obtain ⟨b', h1, h2, h3, h4⟩ := loop_left htop as (a :: P) _ hl1 hnd fun x hx => ht x (by simp [hx])
    refine ⟨b', ?_, ?_, h3, h4⟩
    · simp only [removeLoop, removeStep, hbt]
      exact h1
    · simpa using h2

theorem unsubscribe_inv {h : List Event} {b : State} (hi : Inv h b) (s q i : Nat) :
    Inv (⟨.receive s (.unsubscribe q i), (unsubscribe b s q i).2.map fun x => .msg x.1 x.2⟩ :: h) (unsubscribe b s q i).1 := by
  simp only [unsubscribe]
  cases hm : b.bySession s with
  | none => exact hi.quiet (quiet_fail (.receive s _) (by simp)).1
  | some m =>
    simp only
    cases hg : m.get i with
    | none => exact hi.quiet (quiet_fail (.receive s _) (by simp)).1
    | some p =>
      simp only [Res.map_ok]
      obtain ⟨s1, s2, s3⟩ := hi.ses s m i p hm hg
      have hl := left_step (left_refl b s b.bySession) (a := p) (by simp) (fun t a h => (hi.top t a h).1) s1
        (b.bySession.set s (m.del (b.heap p).id))
      have htp : ∀ t, (∃ a ∈ [p], b.byTopic t = some a) ↔ current h s t = some i := by
        intro t
        rw [hi.cur]
        constructor
        · rintro ⟨a, ha, hb⟩
          simp only [List.mem_singleton] at ha; subst ha
          exact ⟨a, hb, s2, s3⟩
        · rintro ⟨a, h1, h2, h3⟩
          have : t = (b.heap p).topic := hi.ids t a _ p h1 s1 (h2.trans s2.symm)
          rw [this, s1] at h1; cases h1
          exact ⟨p, by simp, this ▸ s1⟩
      refine left_inv hi hm (P := [p]) ?_ hl hi.sess ?_ ?_ ?_ ?_ ?_ ?_ (fun _ => rfl) rfl
      · intro a ha; simp only [List.mem_singleton] at ha; exact ⟨i, ha ▸ hg⟩
      · intro s'
        simp only [FMap.set_apply]
        split
        · rename_i e; subst e
          have := hi.bys s'; rw [hm] at this; exact this
        · exact hi.bys s'
      · intro s' hne; simp only; exact FMap.set_other _ _ hne
      · intro m' hm'
        simp only [FMap.set_same, Option.some.injEq] at hm'
        subst hm'
        refine ⟨AMap.nodup_del (hi.nod s m hm) _, fun j a ha => ?_⟩
        rw [AMap.get_del] at ha
        split at ha
        · cases ha
        · rename_i hne
          refine ⟨ha, ?_⟩
          simp only [List.mem_singleton]
          rintro rfl
          exact hne (hi.ses s m j a hm ha).2.1.symm
      · intro j a ha hne
        refine ⟨_, FMap.set_same _ _ _, ?_⟩
        rw [AMap.get_del, if_neg]
        · exact ha
        · rintro rfl
          rw [s2, hg] at ha; cases ha
          simp at hne
      · intro s' t j
        rw [htp]
        simp only [current]
        by_cases e : s = s'
        · subst e
          by_cases e2 : current h s t = some i
          · simp [e2]
          · simp [e2]
        · have : ¬s' = s := fun x => e x.symm
          simp [e, this]
      · intro t
        rw [htp]
        simp only [intact]
        exact And.comm

theorem remove_inv {h : List Event} {b : State} (hi : Inv h b) (w) (s : Nat) (order : List Nat) :
    Inv (⟨.remove s order, (step w b (.remove s order)).2⟩ :: h) (step w b (.remove s order)).1 ∧
    (step w b (.remove s order)).2 ≠ .panic := by
  simp only [step, removeSession]
  cases hm : b.bySession s with
  | none => exact ⟨hi.quiet (quiet_fail (.remove s order) (by simp)).1, by simp [Res.map]⟩
  | some m =>
    simp only
    have hmem : ∀ a, a ∈ (arrange order m.keys).filterMap m.get ↔ ∃ i, m.get i = some a := by
      intro a
      simp only [List.mem_filterMap, mem_arrange]
      constructor
      · rintro ⟨i, -, h⟩; exact ⟨i, h⟩
      · rintro ⟨i, h⟩; exact ⟨i, (AMap.mem_keys m i).2 (by simp [h]), h⟩
    have hnd : ((arrange order m.keys).filterMap m.get).Nodup := by
      have h1 := nodup_arrange order (hi.nod s m hm)
      rw [List.nodup_iff_pairwise_ne] at h1 ⊢
      refine List.Pairwise.filterMap _ ?_ h1
      intro i j hij a ha a' ha' e
      subst e
      exact hij ((hi.ses s m i a hm ha).2.1.symm.trans (hi.ses s m j a hm ha').2.1)
    obtain ⟨b', h1, h2, h3, h4⟩ := loop_left (b0 := b) (s := s) (fun t a h => (hi.top t a h).1)
      ((arrange order m.keys).filterMap m.get) [] { b with bySession := b.bySession.del s } (left_refl b s _) (by simpa using hnd)
      (fun a ha => by obtain ⟨i, hg⟩ := (hmem a).1 ha; exact (hi.ses s m i a hm hg).1)
    rw [h1]
    simp only [Res.map_ok]
    refine ⟨?_, by simp⟩
    have hmemP : ∀ a, a ∈ ((arrange order m.keys).filterMap m.get).reverse ++ [] ↔ ∃ i, m.get i = some a := by
      intro a; rw [List.append_nil, List.mem_reverse]; exact hmem a
    have htp : ∀ t, (∃ a ∈ ((arrange order m.keys).filterMap m.get).reverse ++ [], b.byTopic t = some a) ↔
        (current h s t).isSome = true := by
      intro t
      rw [Option.isSome_iff_exists]
      constructor
      · rintro ⟨a, ha, hb⟩
        obtain ⟨i, hg⟩ := (hmemP a).1 ha
        obtain ⟨-, s2, s3⟩ := hi.ses s m i a hm hg
        exact ⟨i, (hi.cur s t i).2 ⟨a, hb, s2, s3⟩⟩
      · rintro ⟨i, hc⟩
        obtain ⟨a, h1, h2, h3⟩ := (hi.cur s t i).1 hc
        obtain ⟨m', g1, g2⟩ := hi.ses' t a s h1 h3
        rw [hm] at g1; cases g1
        exact ⟨a, (hmemP a).2 ⟨_, g2⟩, h1⟩
    refine left_inv hi hm (P := ((arrange order m.keys).filterMap m.get).reverse ++ []) (b := { b' with sessions := b'.sessions.del s })
      (fun a ha => (hmemP a).1 ha) ⟨h2.heap, h2.byTopic, h2.tree, h2.wc, h2.next, h2.idGen, h2.details⟩ ?_ ?_ ?_ ?_ ?_ ?_ ?_
      (fun _ => rfl) rfl
    · intro s'
      simp only [session, h4, FMap.del_apply, hi.sess, eq_comm (a := s')]
    · intro s'
      simp only [session, h3, FMap.del_apply, eq_comm (a := s')]
      split
      · rfl
      · exact hi.bys s'
    · intro s' hne
      simp only [h3, FMap.del_other _ hne]
    · intro m' hm'
      simp only [h3, FMap.del_same] at hm'
      cases hm'
    · intro i a hg hn
      exact absurd ((hmemP a).2 ⟨i, hg⟩) hn
    · intro s' t j
      rw [htp]
      simp only [current]
      by_cases e : s = s'
      · subst e
        simp only [if_true, true_and]
        constructor
        · intro h; cases h
        · rintro ⟨h1, h2⟩; rw [h1] at h2; exact absurd rfl h2
      · have : ¬s' = s := fun x => e x.symm
        simp [e, this]
    · intro t
      rw [htp]
      simp only [intact]
      rw [Bool.not_eq_true, Option.isSome_eq_false_iff, Option.isNone_iff_eq_none]
      exact And.comm

/-- The invariant holds after every history below the wrap-around. -/
theorem hist_inv {w : Str → Str → Bool} {h : List Event} {b : State} (hh : Hist w h b) (hlen : h.length ≤ maxID) : Inv h b := by
  induction hh with
  | new => exact init_inv
  | @step h b op hh ih =>
    simp only [List.length_cons] at hlen
    have hi := ih (by omega)
    cases op with
    | add d => exact add_inv hi w d
    | remove s o => exact (remove_inv hi w s o).1
    | has t => exact hi.quiet (quiet_has t _)
    | disclose on => exact disclose_inv hi w on
    | receive s m =>
      cases m
      case subscribe q o t => exact subscribe_inv hi (by omega) s q o t
      case unsubscribe q i => exact unsubscribe_inv hi s q i
      all_goals exact hi.quiet (quiet_fail (.receive s _) (by simp)).1
    | publish s q o t a k wo so => exact publish_inv hi (by omega) w s q o t a k wo so

end Wamp.Broker
