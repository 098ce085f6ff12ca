import Verif.Props.Again
import Verif.Spec.Listener
/-!
# C166: a listener goes unnoticed
-/
namespace Wamp.Broker
variable {w : Str → Str → Bool}

namespace Listener

/-- `b'` is `b` with listener `s` in addition, who subscribed only where `a` is subscribed. -/
structure Rel (s a : Nat) (b b' : State) : Prop where
  heap : ∀ p, b'.heap p = { b.heap p with subscribers := (b'.heap p).subscribers }
  subs : ∀ p, (b'.heap p).subscribers.filter (· ≠ s) = (b.heap p).subscribers
  own : ∀ p, s ∈ (b'.heap p).subscribers → a ∈ (b.heap p).subscribers ∧ (b.heap p).mtch = matchExact ∧
    b.byTopic (b.heap p).topic = some p ∧ p < b.next
  next : b'.next = b.next
  byT : b'.byTopic = b.byTopic
  tree : b'.tree = b.tree
  wc : b'.wc = b.wc
  details : b'.details = b.details
  idGen : b'.idGen = b.idGen
  bys : ∀ x, x ≠ s → b'.bySession x = b.bySession x
  sess : ∀ x, x ≠ s → b'.sessions x = b.sessions x
  map : ∀ m i p, b'.bySession s = some m → m.get i = some p → s ∈ (b'.heap p).subscribers ∧ (b.heap p).id = i

variable {s a : Nat} {b b' : State}

theorem Rel.topic (h : Rel s a b b') (p : Nat) : (b'.heap p).topic = (b.heap p).topic := by rw [h.heap p]
theorem Rel.id (h : Rel s a b b') (p : Nat) : (b'.heap p).id = (b.heap p).id := by rw [h.heap p]
theorem Rel.mtch (h : Rel s a b b') (p : Nat) : (b'.heap p).mtch = (b.heap p).mtch := by rw [h.heap p]

theorem Rel.mem (h : Rel s a b b') {x : Nat} (hx : x ≠ s) (p : Nat) : x ∈ (b'.heap p).subscribers ↔ x ∈ (b.heap p).subscribers := by
  rw [← h.subs p, List.mem_filter]
  simp [hx]

/-- Without the listener nothing is different. -/
theorem Rel.alone (h : Rel s a b b') {p : Nat} (hs : s ∉ (b'.heap p).subscribers) : (b'.heap p).subscribers = (b.heap p).subscribers := by
  rw [← h.subs p, eq_comm, List.filter_eq_self]
  intro x hx
  simp only [decide_eq_true_eq]
  exact fun e => hs (e ▸ hx)

theorem filter_comm' (x s : Nat) (l : List Nat) : (l.filter (· ≠ x)).filter (· ≠ s) = (l.filter (· ≠ s)).filter (· ≠ x) := by
  rw [List.filter_filter, List.filter_filter]
  congr 1
  funext y
  rw [Bool.and_comm]

theorem Rel.empty (h : Rel s a b b') (p : Nat) : (b'.heap p).subscribers.isEmpty = (b.heap p).subscribers.isEmpty := by
  by_cases hs : s ∈ (b'.heap p).subscribers
  · have ha := (h.own p hs).1
    cases h1 : (b'.heap p).subscribers with
    | nil => rw [h1] at hs; cases hs
    | cons x l =>
      cases h2 : (b.heap p).subscribers with
      | nil => rw [h2] at ha; cases ha
      | cons y l' => rfl
  · rw [h.alone hs]

theorem Rel.emptied (h : Rel s a b b') {x : Nat} (ha : x ≠ a) (hx : x ≠ s) (p : Nat) :
    ((b'.heap p).subscribers.filter (· ≠ x)).isEmpty = ((b.heap p).subscribers.filter (· ≠ x)).isEmpty := by
  by_cases hs : s ∈ (b'.heap p).subscribers
  · have h1 : s ∈ (b'.heap p).subscribers.filter (· ≠ x) := by
      rw [List.mem_filter]
      exact ⟨hs, by simp [Ne.symm hx]⟩
    have h2 : a ∈ (b.heap p).subscribers.filter (· ≠ x) := by
      rw [List.mem_filter]
      exact ⟨(h.own p hs).1, by simp [Ne.symm ha]⟩
    cases h3 : (b'.heap p).subscribers.filter (· ≠ x) with
    | nil => rw [h3] at h1; cases h1
    | cons y l =>
      cases h4 : (b.heap p).subscribers.filter (· ≠ x) with
      | nil => rw [h4] at h2; cases h2
      | cons z l' => rfl
  · rw [h.alone hs]

/-- Another session is taken out of a subscription. -/
theorem Rel.drop (h : Rel s a b b') {x : Nat} (ha : x ≠ a) (hx : x ≠ s) (p : Nat) {k : Str}
    (hk : (b.heap p).topic = k) (hb : b.byTopic k = some p) {f f' : FMap Nat (AMap Nat Nat)} (hf : ∀ y, y ≠ s → f' y = f y) (hfs : f' s = b'.bySession s) :
    Rel s a
      { b with
        heap := hset b.heap p { b.heap p with subscribers := (b.heap p).subscribers.filter (· ≠ x) }
        byTopic := if ((b.heap p).subscribers.filter (· ≠ x)).isEmpty then b.byTopic.del k else b.byTopic
        tree := if (b.heap p).mtch = matchPrefix then b.tree.del (b.heap p).topic else b.tree
        wc := if (b.heap p).mtch = matchWildcard then b.wc.del k else b.wc
        bySession := f }
      { b' with
        heap := hset b'.heap p { b.heap p with subscribers := (b'.heap p).subscribers.filter (· ≠ x) }
        byTopic := if ((b'.heap p).subscribers.filter (· ≠ x)).isEmpty then b.byTopic.del k else b.byTopic
        tree := if (b.heap p).mtch = matchPrefix then b.tree.del (b.heap p).topic else b.tree
        wc := if (b.heap p).mtch = matchWildcard then b.wc.del k else b.wc
        bySession := f' } := by
  have hsp : ∀ q, s ∈ (hset b'.heap p { b.heap p with subscribers := (b'.heap p).subscribers.filter (· ≠ x) } q).subscribers ↔
      s ∈ (b'.heap q).subscribers := by
    intro q
    simp only [hset]
    split
    · rename_i e
      subst e
      simp [Ne.symm hx]
    · exact Iff.rfl
  refine ⟨?_, ?_, ?_, h.next, ?_, ?_, ?_, h.details, h.idGen, hf, h.sess, ?_⟩
  · intro q
    simp only [hset]
    split
    · rfl
    · exact h.heap q
  · intro q
    simp only [hset]
    split
    · show ((b'.heap p).subscribers.filter (· ≠ x)).filter (· ≠ s) = (b.heap p).subscribers.filter (· ≠ x)
      rw [filter_comm', h.subs]
    · exact h.subs q
  · intro q hq
    obtain ⟨h1, h2, h3, h4⟩ := h.own q ((hsp q).1 hq)
    have hne : q = p → ((b.heap p).subscribers.filter (· ≠ x)).isEmpty = false := fun e => by
      subst e
      have : a ∈ (b.heap q).subscribers.filter (· ≠ x) := by
        rw [List.mem_filter]
        exact ⟨h1, by simp [Ne.symm ha]⟩
      cases h5 : (b.heap q).subscribers.filter (· ≠ x) with
      | nil => rw [h5] at this; cases this
      | cons y l => rfl
    have ht : (hset b.heap p { b.heap p with subscribers := (b.heap p).subscribers.filter (· ≠ x) } q).topic = (b.heap q).topic := by
      simp only [hset]
      split
      · rename_i e; rw [e]
      · rfl
    refine ⟨?_, ?_, ?_, h4⟩
    · simp only [hset]
      split
      · rename_i e
        subst e
        rw [List.mem_filter]
        exact ⟨h1, by simp [Ne.symm ha]⟩
      · exact h1
    · simp only [hset]
      split
      · rename_i e; rw [← e]; exact h2
      · exact h2
    · show (if ((b.heap p).subscribers.filter (· ≠ x)).isEmpty = true then b.byTopic.del k else b.byTopic)
        (hset b.heap p { b.heap p with subscribers := (b.heap p).subscribers.filter (· ≠ x) } q).topic = some q
      rw [ht]
      split
      · rename_i hz
        simp only [FMap.del]
        split
        · rename_i e
          rw [e, hb] at h3
          cases h3
          rw [hne rfl] at hz
          cases hz
        · exact h3
      · exact h3
  · show (if _ then _ else _) = (if _ then _ else _)
    rw [h.emptied ha hx]
  · rfl
  · rfl
  · intro m i q hm hg
    have hm : f' s = some m := hm
    rw [hfs] at hm
    obtain ⟨h1, h2⟩ := h.map m i q hm hg
    refine ⟨(hsp q).2 h1, ?_⟩
    simp only [hset]
    split
    · rename_i e; rw [← e]; exact h2
    · exact h2

theorem Rel.removeStep (h : Rel s a b b') (hi : ∀ t p, b.byTopic t = some p → (b.heap p).topic = t) {x : Nat} (ha : x ≠ a) (hx : x ≠ s) (v : Nat) :
    (Broker.removeStep x b v = .panic ∧ Broker.removeStep x b' v = .panic) ∨
    ∃ c c', Broker.removeStep x b v = .ok c ∧ Broker.removeStep x b' v = .ok c' ∧ Rel s a c c' ∧ (∀ t p, c.byTopic t = some p → (c.heap p).topic = t) := by
  cases hb : b.byTopic (b.heap v).topic with
  | none => exact .inl ⟨by simp only [Broker.removeStep, hb], by simp only [Broker.removeStep, h.byT, h.topic, hb]⟩
  | some p =>
    refine .inr ⟨_, _, by simp only [Broker.removeStep, hb], by simp only [Broker.removeStep, h.byT, h.topic, h.id, h.mtch, h.tree, h.wc, hb],
      h.drop ha hx p (hi _ p hb) hb h.bys rfl, ?_⟩
    intro t q hq
    have hq' : b.byTopic t = some q := by
      have hq : (if ((b.heap p).subscribers.filter (· ≠ x)).isEmpty = true then b.byTopic.del (b.heap v).topic else b.byTopic) t = some q := hq
      split at hq
      · simp only [FMap.del] at hq
        split at hq
        · cases hq
        · exact hq
      · exact hq
    have := hi t q hq'
    show (hset b.heap p _ q).topic = t
    simp only [hset]
    split
    · rename_i e; rw [← e]; exact this
    · exact this

theorem Rel.removeLoop {x : Nat} (ha : x ≠ a) (hx : x ≠ s) : ∀ (vs : List Nat) {b b' : State}, Rel s a b b' →
    (∀ t p, b.byTopic t = some p → (b.heap p).topic = t) →
    (Broker.removeLoop x b vs = .panic ∧ Broker.removeLoop x b' vs = .panic) ∨
    ∃ c c', Broker.removeLoop x b vs = .ok c ∧ Broker.removeLoop x b' vs = .ok c' ∧ Rel s a c c'
  | [], b, b', h, _ => .inr ⟨b, b', rfl, rfl, h⟩
  | v :: vs, b, b', h, hi => by
    rcases h.removeStep hi ha hx v with ⟨h1, h2⟩ | ⟨c, c', h1, h2, h3, h4⟩
    · exact .inl ⟨by simp [Broker.removeLoop, h1, Res.bind], by simp [Broker.removeLoop, h2, Res.bind]⟩
    · simp only [Broker.removeLoop, h1, h2, Res.bind_ok]
      exact Rel.removeLoop ha hx vs h3 h4

theorem filter_arrange (s : Nat) (o : List Nat) {l l' : List Nat} (h : l'.filter (· ≠ s) = l) : (arrange o l').filter (· ≠ s) = arrange o l := by
  subst h
  unfold arrange
  rw [List.filter_append, List.filter_filter, List.filter_filter, List.filter_filter]
  congr 1
  · congr 1
    funext x
    by_cases hx : x = s
    · subst hx; simp
    · simp [hx]
  · congr 1
    funext x
    rw [Bool.and_comm]

theorem Rel.lookup (h : Rel s a b b') (o : List Str) (t : Str) : Broker.lookup w o b' t = Broker.lookup w o b t := by
  unfold Broker.lookup
  simp only [h.byT, h.tree, h.wc, h.empty]

/-- A call of somebody else. -/
theorem Rel.other (h : Rel s a b b') (hi : ∀ t p, b.byTopic t = some p → (b.heap p).topic = t ∧ p < b.next)
    (hses : ∀ x m i p, b.bySession x = some m → m.get i = some p → b.byTopic (b.heap p).topic = some p) {op : Op} (ho : stays s a op = true) :
    unheard s (step w b' op).2 = (step w b op).2 ∧ Rel s a (step w b op).1 (step w b' op).1 := by
  cases op with
  | add d =>
    have hd : d.id ≠ s := by simpa [stays] using ho
    simp only [step, addSession, h.bys _ hd]
    split
    · exact ⟨rfl, h⟩
    · refine ⟨rfl, h.heap, h.subs, h.own, h.next, h.byT, h.tree, h.wc, h.details, h.idGen, ?_, ?_, ?_⟩
      · intro x hx
        show FMap.set _ _ _ x = FMap.set _ _ _ x
        simp only [FMap.set, h.bys x hx]
      · intro x hx
        show FMap.set _ _ _ x = FMap.set _ _ _ x
        simp only [FMap.set, h.sess x hx]
      · intro m i p hm
        have hm : FMap.set _ _ _ s = some m := hm
        simp only [FMap.set, if_neg (Ne.symm hd)] at hm
        exact h.map m i p hm
  | remove x o =>
    have hx : x ≠ s ∧ x ≠ a := by simpa [stays] using ho
    simp only [step, removeSession, h.bys _ hx.1]
    cases hb : b.bySession x with
    | none => exact ⟨rfl, h⟩
    | some m =>
      have h0 : Rel s a { b with bySession := b.bySession.del x } { b' with bySession := b'.bySession.del x } := by
        refine ⟨h.heap, h.subs, h.own, h.next, h.byT, h.tree, h.wc, h.details, h.idGen, ?_, h.sess, ?_⟩
        · intro y hy
          show FMap.del _ _ y = FMap.del _ _ y
          simp only [FMap.del, h.bys y hy]
        · intro m i p hm
          have hm : FMap.del _ _ s = some m := hm
          simp only [FMap.del, if_neg (Ne.symm hx.1)] at hm
          exact h.map m i p hm
      dsimp only
      rcases Rel.removeLoop hx.2 hx.1 ((arrange o m.keys).filterMap m.get) h0 (fun t p hp => (hi t p hp).1) with ⟨h1, h2⟩ | ⟨c, c', h1, h2, h3⟩
      · rw [h1, h2]
        exact ⟨rfl, h⟩
      · rw [h1, h2]
        refine ⟨rfl, h3.heap, h3.subs, h3.own, h3.next, h3.byT, h3.tree, h3.wc, h3.details, h3.idGen, h3.bys, ?_, h3.map⟩
        intro y hy
        show FMap.del _ _ y = FMap.del _ _ y
        simp only [FMap.del, h3.sess y hy]
  | has t =>
    simp only [step, hasSubscription, h.byT]
    exact ⟨rfl, h⟩
  | disclose on =>
    exact ⟨rfl, h.heap, h.subs, h.own, h.next, h.byT, h.tree, h.wc, rfl, h.idGen, h.bys, h.sess, h.map⟩
  | receive x msg =>
    cases msg with
    | subscribe q o t =>
      have hx : x ≠ s := by simpa [stays] using ho
      simp only [step, receive, subscribe, h.bys _ hx, h.byT, h.id, h.topic, h.mtch]
      cases hb : b.bySession x with
      | none => exact ⟨rfl, h⟩
      | some m =>
        cases ht : b.byTopic t with
        | some p =>
          have hc : (b'.heap p).subscribers.contains x = (b.heap p).subscribers.contains x := by
            rw [Bool.eq_iff_iff, List.contains_iff_mem, List.contains_iff_mem, h.mem hx]
          dsimp only
          rw [hc]
          have hsub : ∀ q, s ∈ (hset b'.heap p { b.heap p with
              subscribers := if (b.heap p).subscribers.contains x then (b'.heap p).subscribers else (b'.heap p).subscribers ++ [x] } q).subscribers ↔
              s ∈ (b'.heap q).subscribers := by
            intro q
            simp only [hset]
            split
            · rename_i e
              subst e
              dsimp only
              split
              · exact Iff.rfl
              · simp [Ne.symm hx]
            · exact Iff.rfl
          refine ⟨rfl, ?_, ?_, ?_, h.next, rfl, h.tree, h.wc, h.details, h.idGen, ?_, h.sess, ?_⟩
          · intro q
            simp only [hset]
            split
            · rfl
            · exact h.heap q
          · intro q
            simp only [hset]
            split
            · dsimp only
              split
              · exact h.subs p
              · rw [List.filter_append, h.subs p]
                simp [hx]
            · exact h.subs q
          · intro q hq
            obtain ⟨h1, h2, h3, h4⟩ := h.own q ((hsub q).1 hq)
            have ht : (hset b.heap p { b.heap p with
                subscribers := if (b.heap p).subscribers.contains x then (b.heap p).subscribers else (b.heap p).subscribers ++ [x] } q).topic =
                (b.heap q).topic := by
              simp only [hset]
              split
              · rename_i e; rw [e]
              · rfl
            refine ⟨?_, ?_, ?_, h4⟩
            · simp only [hset]
              split
              · rename_i e
                subst e
                dsimp only
                split
                · exact h1
                · exact List.mem_append_left _ h1
              · exact h1
            · simp only [hset]
              split
              · rename_i e; rw [← e]; exact h2
              · exact h2
            · show b.byTopic (hset b.heap p _ q).topic = some q
              rw [ht]
              exact h3
          · intro y hy
            show FMap.set _ _ _ y = FMap.set _ _ _ y
            simp only [FMap.set, h.bys y hy]
          · intro m' i q hm hg
            have hm : FMap.set _ _ _ s = some m' := hm
            simp only [FMap.set, if_neg (Ne.symm hx)] at hm
            obtain ⟨h1, h2⟩ := h.map m' i q hm hg
            refine ⟨(hsub q).2 h1, ?_⟩
            simp only [hset]
            split
            · rename_i e; rw [← e]; exact h2
            · exact h2
        | none =>
          dsimp only
          rw [h.idGen, h.next, h.tree, h.wc]
          have hlt : ∀ q, s ∈ (b'.heap q).subscribers → q ≠ b.next := fun q hq e => by
            have := (h.own q hq).2.2.2
            omega
          have hsub : ∀ q, s ∈ (hset b'.heap b.next ⟨(nextID b.idGen).2, t, [x], normMatch (o.text optMatch)⟩ q).subscribers →
              s ∈ (b'.heap q).subscribers ∧ q ≠ b.next := by
            intro q hq
            simp only [hset] at hq
            split at hq
            · exact absurd (List.mem_singleton.1 hq) (Ne.symm hx)
            · rename_i e; exact ⟨hq, e⟩
          refine ⟨rfl, ?_, ?_, ?_, rfl, ?_, rfl, rfl, h.details, rfl, ?_, h.sess, ?_⟩
          · intro q
            simp only [hset]
            split
            · rfl
            · exact h.heap q
          · intro q
            simp only [hset]
            split
            · simp [hx]
            · exact h.subs q
          · intro q hq
            obtain ⟨hq1, hq2⟩ := hsub q hq
            obtain ⟨h1, h2, h3, h4⟩ := h.own q hq1
            have hh : hset b.heap b.next ⟨(nextID b.idGen).2, t, [x], normMatch (o.text optMatch)⟩ q = b.heap q := by
              simp only [hset, if_neg hq2]
            refine ⟨?_, ?_, ?_, Nat.lt_succ_of_lt h4⟩
            · show a ∈ (hset b.heap b.next _ q).subscribers
              rw [hh]; exact h1
            · show (hset b.heap b.next _ q).mtch = _
              rw [hh]; exact h2
            · show FMap.set b.byTopic t b.next (hset b.heap b.next _ q).topic = some q
              rw [hh]
              simp only [FMap.set]
              split
              · rename_i e; rw [e, ht] at h3; cases h3
              · exact h3
          · rfl
          · intro y hy
            show FMap.set _ _ _ y = FMap.set _ _ _ y
            simp only [FMap.set, h.bys y hy]
          · intro m' i q hm hg
            have hm : FMap.set _ _ _ s = some m' := hm
            simp only [FMap.set, if_neg (Ne.symm hx)] at hm
            obtain ⟨h1, h2⟩ := h.map m' i q hm hg
            have := hlt q h1
            refine ⟨?_, ?_⟩
            · show s ∈ (hset b'.heap b.next _ q).subscribers
              simp only [hset, if_neg this]
              exact h1
            · show (hset b.heap b.next _ q).id = i
              simp only [hset, if_neg this]
              exact h2
    | unsubscribe q i =>
      have hx : x ≠ s ∧ x ≠ a := by simpa [stays] using ho
      simp only [step, receive, unsubscribe, h.bys _ hx.1, h.byT, h.topic, h.id, h.mtch, h.tree, h.wc]
      cases hb : b.bySession x with
      | none => exact ⟨rfl, h⟩
      | some m =>
        dsimp only
        cases hg : m.get i with
        | none => exact ⟨rfl, h⟩
        | some p =>
          dsimp only
          have hbt := hses x m i p hb hg
          refine ⟨rfl, ?_⟩
          exact h.drop (f := b.bySession.set x (m.del (b.heap p).id)) (f' := b'.bySession.set x (m.del (b.heap p).id)) hx.2 hx.1 p rfl hbt
            (fun y hy => by simp only [FMap.set, h.bys y hy]) (by simp only [FMap.set, if_neg (Ne.symm hx.1)])
    | _ => exact ⟨rfl, h⟩
  | publish x q o t args kw wo so =>
    have hx : x ≠ s := by simpa [stays] using ho
    simp only [step, publish, h.bys _ hx]
    cases hb : b.bySession x with
    | none => exact ⟨rfl, h⟩
    | some m =>
      have hr : Rel s a { b with idGen := (nextID b.idGen).1 } { b' with idGen := (nextID b'.idGen).1 } :=
        ⟨h.heap, h.subs, h.own, h.next, h.byT, h.tree, h.wc, h.details, by rw [h.idGen], h.bys, h.sess, h.map⟩
      dsimp only
      rw [h.lookup, show eventDetails b' x t = eventDetails b x t by simp only [eventDetails, h.details, h.sess x hx]]
      cases hl : Broker.lookup w wo b t with
      | none => exact ⟨by rw [h.idGen]; rfl, hr⟩
      | some p =>
        dsimp only
        rw [h.empty]
        split
        · exact ⟨by rw [h.idGen]; rfl, hr⟩
        · cases eventDetails b x t with
          | err => exact ⟨rfl, hr⟩
          | panic => exact ⟨rfl, hr⟩
          | ok d =>
            refine ⟨?_, hr⟩
            rw [h.idGen, h.id]
            simp only [Res.map_ok, unheard]
            rw [filter_arrange s so (h.subs p)]

/-- What the listener relies on: `a` is subscribed there too, and not to a pattern. -/
def Good (a : Nat) (b : State) (p : Nat) : Prop :=
  a ∈ (b.heap p).subscribers ∧ (b.heap p).mtch = matchExact ∧ b.byTopic (b.heap p).topic = some p ∧ p < b.next

theorem filter_twice (s : Nat) (l : List Nat) : (l.filter (· ≠ s)).filter (· ≠ s) = l.filter (· ≠ s) := by
  rw [List.filter_filter]
  simp

/-- The listener is taken out of a subscription. -/
theorem Rel.leaves (h : Rel s a b b') (p : Nat) {f : FMap Nat (AMap Nat Nat)} (hf : ∀ x, x ≠ s → f x = b'.bySession x)
    (hm : ∀ m i q, f s = some m → m.get i = some q → q ≠ p ∧ s ∈ (b'.heap q).subscribers ∧ (b.heap q).id = i) :
    Rel s a b { b' with
      heap := hset b'.heap p { b.heap p with subscribers := (b'.heap p).subscribers.filter (· ≠ s) }
      bySession := f } := by
  refine ⟨?_, ?_, ?_, h.next, h.byT, h.tree, h.wc, h.details, h.idGen, fun x hx => by rw [← h.bys x hx]; exact hf x hx, h.sess, ?_⟩
  · intro q
    simp only [hset]
    split
    · rename_i e; rw [e]
    · exact h.heap q
  · intro q
    simp only [hset]
    split
    · rename_i e
      rw [e]
      show ((b'.heap p).subscribers.filter (· ≠ s)).filter (· ≠ s) = _
      rw [filter_twice]
      exact h.subs p
    · exact h.subs q
  · intro q hq
    simp only [hset] at hq
    split at hq
    · simp at hq
    · exact h.own q hq
  · intro m i q hq hg
    obtain ⟨h1, h2, h3⟩ := hm m i q hq hg
    refine ⟨?_, h3⟩
    simp only [hset, if_neg h1]
    exact h2

theorem Rel.rest (h : Rel s a b b') {p : Nat} (hg : Good a b p) : ((b'.heap p).subscribers.filter (· ≠ s)).isEmpty = false := by
  rw [h.subs p]
  cases hp : (b.heap p).subscribers with
  | nil => have := hg.1; rw [hp] at this; cases this
  | cons x l => rfl

theorem Rel.leaveLoop : ∀ (ps : List Nat) {b' : State}, Rel s a b b' → b'.bySession s = none → (∀ p ∈ ps, Good a b p) →
    ∃ c, Broker.removeLoop s b' ps = .ok c ∧ Rel s a b c ∧ c.bySession s = none
  | [], b', h, hn, _ => ⟨b', rfl, h, hn⟩
  | p :: ps, b', h, hn, hg => by
    have hp := hg p List.mem_cons_self
    have e1 : ¬(b.heap p).mtch = matchPrefix := by rw [hp.2.1]; decide
    have e2 : ¬(b.heap p).mtch = matchWildcard := by rw [hp.2.1]; decide
    have h1 : Broker.removeStep s b' p = .ok { b' with
        heap := hset b'.heap p { b.heap p with subscribers := (b'.heap p).subscribers.filter (· ≠ s) } } := by
      simp only [Broker.removeStep, h.topic, h.byT, hp.2.2.1, h.rest hp, h.mtch, h.id, e1, e2, if_false, Bool.false_eq_true]
    have h2 := h.leaves p (f := b'.bySession) (fun x _ => rfl) (fun m i q hm => by rw [hn] at hm; cases hm)
    simp only [Broker.removeLoop, h1, Res.bind_ok]
    exact Rel.leaveLoop ps h2 hn fun q hq => hg q (List.mem_cons_of_mem _ hq)

/-- A call of the listener. -/
theorem Rel.mine (h : Rel s a b b') {T : List Str} (hT : ∀ t ∈ T, ∃ p, b.byTopic t = some p ∧ Good a b p) {op : Op}
    (ho : listens s T op = true) : Rel s a b (step w b' op).1 := by
  cases op with
  | add d =>
    have hd : d.id = s := by simpa [listens] using ho
    simp only [step, addSession]
    split
    · exact h
    · refine ⟨h.heap, h.subs, h.own, h.next, h.byT, h.tree, h.wc, h.details, h.idGen, ?_, ?_, ?_⟩
      · intro x hx
        show FMap.set _ _ _ x = _
        simp only [FMap.set, hd, if_neg hx, h.bys x hx]
      · intro x hx
        show FMap.set _ _ _ x = _
        simp only [FMap.set, hd, if_neg hx, h.sess x hx]
      · intro m i p hm hg
        have hm : FMap.set _ _ _ s = some m := hm
        simp only [FMap.set, hd, if_true] at hm
        cases hm
        cases hg
  | remove x o =>
    have hx : x = s := by simpa [listens] using ho
    subst hx
    simp only [step, removeSession]
    cases hb : b'.bySession x with
    | none => exact h
    | some m =>
      have h0 : Rel x a b { b' with bySession := b'.bySession.del x } := by
        refine ⟨h.heap, h.subs, h.own, h.next, h.byT, h.tree, h.wc, h.details, h.idGen, ?_, h.sess, ?_⟩
        · intro y hy
          show FMap.del _ _ y = _
          simp only [FMap.del, if_neg hy, h.bys y hy]
        · intro m i p hm
          have hm : FMap.del _ _ x = some m := hm
          simp [FMap.del] at hm
      obtain ⟨c, h1, h2, h3⟩ := Rel.leaveLoop ((arrange o m.keys).filterMap m.get) h0 (by
          show FMap.del _ _ x = none
          simp [FMap.del]) (fun p hp => by
        obtain ⟨i, -, hi⟩ := List.mem_filterMap.1 hp
        exact h.own p (h.map m i p hb hi).1)
      dsimp only
      rw [h1]
      refine ⟨h2.heap, h2.subs, h2.own, h2.next, h2.byT, h2.tree, h2.wc, h2.details, h2.idGen, h2.bys, ?_, h2.map⟩
      intro y hy
      show FMap.del _ _ y = _
      simp only [FMap.del, if_neg hy, h2.sess y hy]
  | has t => simp [listens] at ho
  | disclose on => simp [listens] at ho
  | publish x q o t args kw wo so => simp [listens] at ho
  | receive x msg =>
    cases msg with
    | subscribe q o t =>
      have hx : x = s ∧ t ∈ T := by simpa [listens] using ho
      obtain ⟨hx, ht⟩ := hx
      subst hx
      obtain ⟨p, hp, hg⟩ := hT t ht
      simp only [step, receive, subscribe, h.byT, hp]
      cases hb : b'.bySession x with
      | none => exact h
      | some m =>
        dsimp only
        simp only [h.id, h.topic, h.mtch]
        have hin : ∀ y, y ∈ (b'.heap p).subscribers →
            y ∈ (if (b'.heap p).subscribers.contains x then (b'.heap p).subscribers else (b'.heap p).subscribers ++ [x]) := fun y hy => by
          split
          · exact hy
          · exact List.mem_append_left _ hy
        have hself : x ∈ (if (b'.heap p).subscribers.contains x then (b'.heap p).subscribers else (b'.heap p).subscribers ++ [x]) := by
          split
          · rename_i e; exact List.contains_iff_mem.1 e
          · simp
        refine ⟨?_, ?_, ?_, h.next, rfl, h.tree, h.wc, h.details, h.idGen, ?_, h.sess, ?_⟩
        · intro q
          simp only [hset]
          split
          · rename_i e; rw [e]
          · exact h.heap q
        · intro q
          simp only [hset]
          split
          · rename_i e
            rw [e]
            dsimp only
            split
            · exact h.subs p
            · rw [List.filter_append, h.subs p]
              simp
          · exact h.subs q
        · intro q hq
          simp only [hset] at hq
          split at hq
          · rename_i e; rw [e]; exact hg
          · exact h.own q hq
        · intro y hy
          show FMap.set _ _ _ y = _
          simp only [FMap.set, if_neg hy, h.bys y hy]
        · intro m' i q hm hq
          have hm : FMap.set _ _ _ x = some m' := hm
          simp only [FMap.set, if_true] at hm
          cases hm
          rw [AMap.get_set] at hq
          split at hq
          · rename_i e
            cases hq
            refine ⟨?_, e.symm⟩
            simp only [hset, if_true]
            exact hself
          · obtain ⟨h1, h2⟩ := h.map m i q hb hq
            refine ⟨?_, h2⟩
            simp only [hset]
            split
            · rename_i e
              rw [e] at h1
              exact hin x h1
            · exact h1
    | unsubscribe q i =>
      have hx : x = s := by simpa [listens] using ho
      subst hx
      simp only [step, receive, unsubscribe]
      cases hb : b'.bySession x with
      | none => exact h
      | some m =>
        dsimp only
        cases hq : m.get i with
        | none => exact h
        | some p =>
          obtain ⟨k1, k2⟩ := h.map m i p hb hq
          have hp : Good a b p := h.own p k1
          have e1 : ¬(b.heap p).mtch = matchPrefix := by rw [hp.2.1]; decide
          have e2 : ¬(b.heap p).mtch = matchWildcard := by rw [hp.2.1]; decide
          simp only [h.topic, h.id, h.mtch, h.rest hp, e1, e2, if_false, Bool.false_eq_true]
          refine h.leaves p (f := b'.bySession.set x (m.del (b.heap p).id)) (fun y hy => by simp only [FMap.set, if_neg hy]) ?_
          intro m' j r hm hr
          simp only [FMap.set, if_true] at hm
          cases hm
          rw [AMap.get_del] at hr
          split at hr
          · cases hr
          · rename_i e
            obtain ⟨h1, h2⟩ := h.map m j r hb hr
            exact ⟨fun c => e (by rw [← h2, c]), h1, h2⟩
    | _ => exact h

/-- The steady subscriber's calls leave it where it is. -/
theorem steady {h : List Event} {b : State} (hh : Hist w h b) (hlen : h.length ≤ 2 ^ 53) {t : Str} {i : Nat} {p : Str} (hc : current h a t = some i)
    (hp : policy h i = some p) {op : Op} (ho : stays s a op = true) :
    current (⟨op, (step w b op).2⟩ :: h) a t = some i ∧ policy (⟨op, (step w b op).2⟩ :: h) i = some p := by
  refine ⟨?_, ?_⟩
  · cases op with
    | receive x msg =>
      cases msg with
      | subscribe q o t' =>
        by_cases hx : x = a ∧ t' = t
        · obtain ⟨rfl, rfl⟩ := hx
          rw [(C164_again hh hlen hc q o).1]
          simp [current]
        · cases hr : (step w b (.receive x (.subscribe q o t'))).2 with
          | ok r =>
            cases r with
            | msg m y => cases m <;> simp only [current, if_neg hx, hc]
            | _ => simp only [current, hc]
          | _ => simp only [current, hc]
      | unsubscribe q j =>
        have hx : x ≠ s ∧ x ≠ a := by simpa [stays] using ho
        cases (step w b (.receive x (.unsubscribe q j))).2 <;> simp only [current, hc, hx.2, false_and, if_false]
      | _ => simp only [current, hc]
    | remove x o =>
      have hx : x ≠ s ∧ x ≠ a := by simpa [stays] using ho
      cases (step w b (.remove x o)).2 <;> simp only [current, hc, if_neg hx.2]
    | _ => simp only [current, hc]
  · cases op with
    | receive x msg =>
      cases msg with
      | subscribe q o t' =>
        cases hr : (step w b (.receive x (.subscribe q o t'))).2 with
        | ok r =>
          cases r with
          | msg m y => cases m <;> simp only [policy, hp]
          | _ => simp only [policy, hp]
        | _ => simp only [policy, hp]
      | _ => simp only [policy, hp]
    | _ => simp only [policy, hp]

/-- Who is subscribed is subscribed to what the topic stands for. -/
structure Live (b : State) : Prop where
  top : ∀ t p, b.byTopic t = some p → (b.heap p).topic = t
  live : ∀ x p, x ∈ (b.heap p).subscribers → b.byTopic (b.heap p).topic = some p

theorem Live.drop (h : Live b) (x : Nat) {p : Nat} (hp : b.byTopic (b.heap p).topic = some p) {c : State}
    (hc : c.heap = hset b.heap p { b.heap p with subscribers := (b.heap p).subscribers.filter (· ≠ x) })
    (hb : c.byTopic = if ((b.heap p).subscribers.filter (· ≠ x)).isEmpty then b.byTopic.del (b.heap p).topic else b.byTopic) : Live c := by
  have ht : ∀ q, (c.heap q).topic = (b.heap q).topic := fun q => by
    simp only [hc, hset]
    split
    · rename_i e; rw [e]
    · rfl
  refine ⟨fun t q hq => ?_, fun y q hy => ?_⟩
  · rw [ht]
    refine h.top t q ?_
    rw [hb] at hq
    split at hq
    · simp only [FMap.del] at hq
      split at hq
      · cases hq
      · exact hq
    · exact hq
  · rw [ht]
    simp only [hc, hset] at hy
    have hq : b.byTopic (b.heap q).topic = some q := by
      split at hy
      · rename_i e; rw [e]; exact hp
      · exact h.live y q hy
    rw [hb]
    split
    · rename_i he
      have hne : q ≠ p := by
        rintro rfl
        rw [if_pos rfl, List.isEmpty_iff.1 he] at hy
        cases hy
      simp only [FMap.del]
      rw [if_neg fun e => hne (Option.some.inj (hq.symm.trans ((congrArg _ e).trans hp)))]
      exact hq
    · exact hq

theorem Live.loop (x : Nat) : ∀ (ps : List Nat) {b c : State}, Live b → Broker.removeLoop x b ps = .ok c → Live c
  | [], b, c, h, e => by
    simp only [Broker.removeLoop] at e
    cases e
    exact h
  | p :: ps, b, c, h, e => by
    simp only [Broker.removeLoop, Broker.removeStep] at e
    cases hp : b.byTopic (b.heap p).topic with
    | none => rw [hp] at e; cases e
    | some q =>
      rw [hp] at e
      have hq := h.top _ _ hp
      refine Live.loop x ps (h.drop x (p := q) (by rw [hq]; exact hp) ?_ ?_) e
      · rfl
      · rw [hq]

theorem Live.same (h : Live b) {c : State} (hc : c.heap = b.heap) (hb : c.byTopic = b.byTopic) : Live c :=
  ⟨by rw [hc, hb]; exact h.top, by rw [hc, hb]; exact h.live⟩

theorem hist_live {h : List Event} {b : State} (hh : Hist w h b) : h.length ≤ maxID → Live b := by
  induction hh with
  | new => exact fun _ => ⟨fun t p hp => (by cases hp), fun x p hx => (by cases hx)⟩
  | @step h b op hh ih =>
    intro hlen
    have hlen : h.length ≤ maxID := Nat.le_of_succ_le hlen
    have hl := ih hlen
    have hi := hist_inv hh hlen
    cases op with
    | add d =>
      simp only [step, addSession]
      split
      · exact hl
      · exact hl.same rfl rfl
    | remove x o =>
      simp only [step, removeSession]
      cases hb : b.bySession x with
      | none => exact hl
      | some m =>
        dsimp only
        split
        · rename_i c hc
          exact (Live.loop x _ (hl.same (c := { b with bySession := b.bySession.del x }) rfl rfl) hc).same rfl rfl
        · exact hl
        · exact hl
    | has t => exact hl
    | disclose on => exact hl.same rfl rfl
    | publish x q o t args kw wo so =>
      simp only [step, publish]
      cases b.bySession x with
      | none => exact hl
      | some m =>
        dsimp only
        cases lookup w wo b t with
        | none => exact hl.same rfl rfl
        | some p =>
          dsimp only
          split
          · exact hl.same rfl rfl
          · cases eventDetails b x t <;> exact hl.same rfl rfl
    | receive x msg =>
      cases msg with
      | subscribe q o t =>
        simp only [step, receive, subscribe]
        cases hb : b.bySession x with
        | none => exact hl
        | some m =>
          cases hp : b.byTopic t with
          | some p =>
            dsimp only
            have ht := hl.top t p hp
            refine ⟨fun t' r hr => ?_, fun y r hy => ?_⟩
            · simp only [hset]
              split
              · rename_i e; rw [← hl.top t' r hr, e]
              · exact hl.top t' r hr
            · simp only [hset] at hy ⊢
              split at hy
              · rename_i e; rw [if_pos e, e]; dsimp only; rw [ht]; exact hp
              · rename_i e; rw [if_neg e]; exact hl.live y r hy
          | none =>
            dsimp only
            refine ⟨fun t' r hr => ?_, fun y r hy => ?_⟩
            · have hr : FMap.set b.byTopic t b.next t' = some r := hr
              simp only [FMap.set] at hr
              split at hr
              · rename_i e; cases hr; simp [hset, e]
              · have := (hi.top t' r hr).2.1
                simp only [hset]
                rw [if_neg (by omega)]
                exact hl.top t' r hr
            · show FMap.set b.byTopic t b.next _ = some r
              simp only [hset] at hy ⊢
              split at hy
              · rename_i e; rw [if_pos e, e]; simp [FMap.set]
              · rename_i e
                rw [if_neg e]
                have := hl.live y r hy
                simp only [FMap.set]
                rw [if_neg fun e => by rw [e, hp] at this; cases this]
                exact this
      | unsubscribe q i =>
        simp only [step, receive, unsubscribe]
        cases hb : b.bySession x with
        | none => exact hl
        | some m =>
          dsimp only
          cases hq : m.get i with
          | none => exact hl
          | some p => exact hl.drop x (hi.ses x m i p hb hq).1 rfl rfl
      | _ => exact hl

/-- Where the steady subscriber is subscribed. -/
theorem good {h : List Event} {b : State} (hh : Hist w h b) (hlen : h.length ≤ maxID) {T : List Str}
    (hT : ∀ t ∈ T, ∃ i p, current h a t = some i ∧ policy h i = some p ∧ p ≠ str "prefix" ∧ p ≠ str "wildcard") :
    ∀ t ∈ T, ∃ p, b.byTopic t = some p ∧ Good a b p := by
  have hi := hist_inv hh hlen
  intro t ht
  obtain ⟨i, p, h1, h2, h3, h4⟩ := hT t ht
  obtain ⟨q, k1, rfl, k3⟩ := (hi.cur a t i).1 h1
  obtain ⟨l1, l2, -⟩ := hi.top t q k1
  obtain ⟨p', n1, n2⟩ := hi.pol t q k1
  rw [h2] at n1
  cases n1
  refine ⟨q, k1, k3, ?_, by rw [l1]; exact k1, l2⟩
  rw [n2, normMatch, if_neg (show ¬p = matchPrefix from h3), if_neg (show ¬p = matchWildcard from h4)]

theorem main (ha : a ≠ s) {T : List Str} : ∀ (ops : List Op) {h : List Event} {b b' : State}, Hist w h b → h.length + ops.length ≤ 2 ^ 53 →
    Rel s a b b' →
    (∀ t ∈ T, ∃ i p, current h a t = some i ∧ policy h i = some p ∧ p ≠ str "prefix" ∧ p ≠ str "wildcard") →
    (∀ op ∈ ops, listens s T op = true ∨ stays s a op = true) →
    (repliesToOthers s T w b' ops).map (unheard s) = replies w b (ops.filter fun op => !listens s T op)
  | [], _, _, _, _, _, _, _, _ => rfl
  | op :: ops, h, b, b', hh, hlen, hr, hT, ho => by
    have hlen' : h.length + 1 + ops.length ≤ 2 ^ 53 := by simp only [List.length_cons] at hlen; omega
    have hi := hist_inv hh (by unfold maxID; omega)
    by_cases hl : listens s T op = true
    · have hgood := good hh (by unfold maxID; omega) hT
      simp only [repliesToOthers, hl, if_true, List.nil_append, List.filter_cons, Bool.not_true, Bool.false_eq_true, if_false]
      exact main ha ops hh (by omega) (hr.mine hgood hl) hT fun x hx => ho x (List.mem_cons_of_mem _ hx)
    · have hs := (ho op List.mem_cons_self).resolve_left hl
      obtain ⟨h1, h2⟩ := hr.other (w := w) (fun t p hp => ⟨(hi.top t p hp).1, (hi.top t p hp).2.1⟩) (fun x m i p hm hg => (hi.ses x m i p hm hg).1) hs
      have hl' : listens s T op = false := by simpa using hl
      simp only [repliesToOthers, hl', List.filter_cons, Bool.not_false, if_true, Bool.false_eq_true, if_false, List.cons_append, List.nil_append,
        List.map_cons, replies, h1]
      rw [main ha ops (hh.step op) (by simp only [List.length_cons]; omega) h2 (fun t ht => ?_) fun x hx => ho x (List.mem_cons_of_mem _ hx)]
      obtain ⟨i, p, k1, k2, k3⟩ := hT t ht
      obtain ⟨k4, k5⟩ := steady (w := w) hh (by omega) k1 k2 hs
      exact ⟨i, p, k4, k5, k3⟩

/-- The listener is not there. -/
theorem alone {h : List Event} {b : State} (hh : Hist w h b) (hlen : h.length ≤ maxID) (hs : ¬attached h s) : Rel s a b b := by
  have hi := hist_inv hh hlen
  have hn : b.bySession s = none := by
    have := hi.bys s
    cases hb : b.bySession s with
    | none => rfl
    | some m =>
      rw [hb] at this
      exact absurd this.symm hs
  have hl := hist_live hh hlen
  have hout : ∀ p, s ∉ (b.heap p).subscribers := fun p hp => by
    obtain ⟨m, hm, -⟩ := hi.ses' _ p s (hl.live s p hp) hp
    rw [hn] at hm
    cases hm
  refine ⟨fun _ => rfl, fun p => ?_, fun p hp => absurd hp (hout p), rfl, rfl, rfl, rfl, rfl, rfl, fun _ _ => rfl, fun _ _ => rfl, fun m i p hm => ?_⟩
  · rw [List.filter_eq_self]
    intro x hx
    simp only [decide_eq_true_eq]
    exact fun e => hout p (e ▸ hx)
  · rw [hn] at hm
    cases hm

end Listener

/-- **C166.** A listener goes unnoticed.  Session `s` comes and goes as it likes and subscribes to and unsubscribes from topics to which session
`a` is subscribed too (not as patterns), while the others do what they like, except that `a` does not unsubscribe or leave.  Then the others'
calls return what they return without the listener, but for the listener among the recipients of publications. -/
theorem C166_listener {h : List Event} {b : State} (hh : Hist w h b) (s a : Nat) (T : List Str) (ops : List Op)
    (hlen : h.length + ops.length ≤ 2 ^ 53) (hs : ¬attached h s)
    (hT : ∀ t ∈ T, ∃ i p, current h a t = some i ∧ policy h i = some p ∧ p ≠ str "prefix" ∧ p ≠ str "wildcard") (ha : a ≠ s)
    (ho : ∀ op ∈ ops, listens s T op = true ∨ stays s a op = true) :
    (repliesToOthers s T w b ops).map (unheard s) = replies w b (ops.filter fun op => !listens s T op) := by
  exact Listener.main ha ops hh hlen (Listener.alone hh (by unfold maxID; omega) hs) hT ho

open Again

/-- Session 1 is subscribed to `t`, session 3 is not there: it comes, subscribes to `t`, unsubscribes and leaves while session 2 publishes and
session 4 subscribes. -/
example : let h := (exec (fun _ _ => false) ([], init) [comes 1, comes 2, comes 4, wants 1 "t"]).1
    let b := (exec (fun _ _ => false) ([], init) [comes 1, comes 2, comes 4, wants 1 "t"]).2
    let ops := [comes 3, wants 3 "t", tells 2 "t", wants 4 "t", .receive 3 (.unsubscribe 1 1), tells 2 "t", wants 3 "t", .remove 3 [], tells 2 "t"]
    ¬attached h 3 ∧ current h 1 (str "t") = some 1 ∧ policy h 1 = some [] ∧
      (∀ op ∈ ops, listens 3 [str "t"] op = true ∨ stays 3 1 op = true) ∧
      reached (repliesToOthers 3 [str "t"] (fun _ _ => false) b ops) = [[1, 3], [1, 4], [1, 4]] ∧
      reached (replies (fun _ _ => false) b (ops.filter fun op => !listens 3 [str "t"] op)) = [[1], [1, 4], [1, 4]] := by
  refine ⟨by unfold attached; decide +kernel, by decide +kernel, by decide +kernel, ?_, by decide +kernel, by decide +kernel⟩
  intro op hop
  simp only [List.mem_cons, List.not_mem_nil, or_false] at hop
  rcases hop with rfl | rfl | rfl | rfl | rfl | rfl | rfl | rfl | rfl <;> decide +kernel

/-- A listener to a pattern is noticed: when it leaves, session 1, which is subscribed to the pattern too, gets nothing any more (C72). -/
theorem C166_listener_refuted : let b := (exec (fun _ _ => false) ([], init) [comes 1, comes 2, prefixed 1 "a"]).2
    let ops := [comes 3, prefixed 3 "a", .remove 3 [], tells 2 "ab"]
    reached (repliesToOthers 3 [str "a"] (fun _ _ => false) b ops) = [[]] ∧
    reached (replies (fun _ _ => false) b (ops.filter fun op => !listens 3 [str "a"] op)) = [[1]] := by
  decide +kernel

/-- Where nobody else is subscribed, the listener is noticed by `HasSubscription`. -/
theorem C166_alone_refuted : let b := (exec (fun _ _ => false) ([], init) [comes 1]).2
    let ops := [comes 3, wants 3 "t", .has (str "t")]
    let found := fun l : List (Res Out) => l.filterMap fun | .ok (.bool x) => some x | _ => none
    found (repliesToOthers 3 [str "t"] (fun _ _ => false) b ops) = [true] ∧
    found (replies (fun _ _ => false) b (ops.filter fun op => !listens 3 [str "t"] op)) = [false] := by
  decide +kernel

end Wamp.Broker
