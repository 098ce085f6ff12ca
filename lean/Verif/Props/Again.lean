import Verif.Props.Broker
import Verif.Spec.AsNew
/-!
# C164: subscribing again, changing one's mind, and leaving
-/
namespace Wamp.Broker
variable {w : Str → Str → Bool}

private theorem set_same {K V : Type} [DecidableEq K] (m : AMap K V) (k : K) (v : V) (h : m.get k = some v) : m.set k v = m := by
  induction m with
  | nil => cases h
  | cons x m ih =>
    obtain ⟨a, b⟩ := x
    simp only [AMap.get] at h
    simp only [AMap.set]
    split at h
    · rename_i e
      cases h
      rw [if_pos e, e]
    · rename_i e
      rw [if_neg e, ih h]

private theorem set_del {K V : Type} [DecidableEq K] (m : AMap K V) (k : K) (v : V) (h : m.get k = none) : (m.set k v).del k = m := by
  induction m with
  | nil => simp [AMap.set, AMap.del]
  | cons x m ih =>
    obtain ⟨a, b⟩ := x
    simp only [AMap.get] at h
    split at h
    · cases h
    · rename_i e
      simp only [AMap.set, if_neg e, AMap.del, ih h]

private theorem fset_same (m : FMap Nat (AMap Nat Nat)) (k : Nat) (v : AMap Nat Nat) (h : m k = some v) : m.set k v = m := by
  funext x
  simp only [FMap.set]
  split
  · rename_i e; rw [e, h]
  · rfl

private theorem hset_same (f : Nat → Sub) (a : Nat) : hset f a (f a) = f := by
  funext x
  simp only [hset]
  split
  · rename_i e; rw [e]
  · rfl

/-- **C164.** Who is subscribed to a topic and subscribes to it again gets the same subscription ID again, whatever the options, and nothing
changes: all later calls return what they would have returned without it. -/
theorem C164_again {h : List Event} {b : State} (hh : Hist w h b) (hlen : h.length ≤ 2 ^ 53) {s i : Nat} {t : Str} (hc : current h s t = some i)
    (q : Nat) (o : GoMap) :
    (step w b (.receive s (.subscribe q o t))).2 = .ok (.msg (.subscribed q i) s) ∧
    ∀ later, replies w (step w b (.receive s (.subscribe q o t))).1 later = replies w b later := by
  have hi := hist_inv hh hlen
  obtain ⟨a, ht, rfl, hs⟩ := (hi.cur s t i).1 hc
  obtain ⟨m, hm, hg⟩ := hi.ses' t a s ht hs
  have this : subscribe b s q o t = (b, .ok (newSubscribed q (b.heap a).id, s)) := by
    simp only [subscribe, hm, ht, List.contains_iff_mem.2 hs, if_true]
    rw [set_same m _ _ hg, fset_same _ _ _ hm]
    show (State.mk (hset b.heap a (b.heap a)) _ _ _ _ _ _ _ _, _) = _
    rw [hset_same]
  simp only [step, receive, this]
  exact ⟨rfl, fun _ => trivial⟩

/-- **C164.** Who subscribes to a topic that others are subscribed to, not as a pattern, and unsubscribes at once, leaves no trace: all later
calls return what they would have returned without that.  Missing: patterns, for which it is false (`C164_undo_refuted`). -/
theorem C164_undo_partial {h : List Event} {b : State} (hh : Hist w h b) (hlen : h.length ≤ 2 ^ 53) {s : Nat} {t : Str} (ha : attached h s)
    (hn : current h s t = none) (hl : live h t) (hp : ∀ s' i p, current h s' t = some i → policy h i = some p → p ≠ str "prefix" ∧ p ≠ str "wildcard")
    (q q' : Nat) (o : GoMap) :
    ∃ i, (step w b (.receive s (.subscribe q o t))).2 = .ok (.msg (.subscribed q i) s) ∧
      (step w (step w b (.receive s (.subscribe q o t))).1 (.receive s (.unsubscribe q' i))).2 = .ok (.msg (.unsubscribed q') s) ∧
      ∀ later, replies w (step w (step w b (.receive s (.subscribe q o t))).1 (.receive s (.unsubscribe q' i))).1 later = replies w b later := by
  have hi := hist_inv hh hlen
  obtain ⟨s', i, hc⟩ := hl
  obtain ⟨a, ht, rfl, hs'⟩ := (hi.cur s' t i).1 hc
  have hns : s ∉ (b.heap a).subscribers := by
    intro hx
    have := (hi.cur s t _).2 ⟨a, ht, rfl, hx⟩
    rw [hn] at this
    cases this
  obtain ⟨m, hm⟩ : ∃ m, b.bySession s = some m := by
    have := hi.bys s
    rw [ha] at this
    exact Option.isSome_iff_exists.1 this
  have hg : m.get (b.heap a).id = none := by
    cases hg : m.get (b.heap a).id with
    | none => rfl
    | some a' =>
      obtain ⟨h1, h2, h3⟩ := hi.ses s m _ a' hm hg
      have : (b.heap a').topic = t := hi.ids _ a' t a h1 ht h2
      rw [this, ht] at h1
      cases h1
      exact absurd h3 hns
  obtain ⟨p, hp1, hp2⟩ := hi.pol t a ht
  obtain ⟨n1, n2⟩ := hp s' _ p hc hp1
  have hx : (b.heap a).mtch = matchExact := by
    rw [hp2, normMatch, if_neg (show ¬p = matchPrefix from n1), if_neg (show ¬p = matchWildcard from n2)]
  have hx1 : ¬(b.heap a).mtch = matchPrefix := by rw [hx]; decide
  have hx2 : ¬(b.heap a).mtch = matchWildcard := by rw [hx]; decide
  refine ⟨(b.heap a).id, ?_⟩
  have hc' : ¬(b.heap a).subscribers.contains s = true := fun c => hns (List.contains_iff_mem.1 c)
  let b1 : State := { b with
    heap := hset b.heap a { b.heap a with subscribers := (b.heap a).subscribers ++ [s] }
    bySession := b.bySession.set s (m.set (b.heap a).id a) }
  have e1 : subscribe b s q o t = (b1, .ok (newSubscribed q (b.heap a).id, s)) := by
    simp only [subscribe, hm, ht, if_neg hc']
    rfl
  have hf : ((b.heap a).subscribers ++ [s]).filter (fun x => decide (x ≠ s)) = (b.heap a).subscribers := by
    rw [List.filter_append]
    have h1 : (b.heap a).subscribers.filter (fun x => decide (x ≠ s)) = (b.heap a).subscribers := by
      rw [List.filter_eq_self]
      intro x hx
      simp only [decide_eq_true_eq]
      exact fun e => hns (e ▸ hx)
    rw [h1]
    simp
  have hne : (b.heap a).subscribers.isEmpty = false := by
    cases hq : (b.heap a).subscribers with
    | nil => rw [hq] at hs'; cases hs'
    | cons x l => rfl
  have hh2 : hset (hset b.heap a { b.heap a with subscribers := (b.heap a).subscribers ++ [s] }) a (b.heap a) = b.heap := by
    funext x
    simp only [hset]
    split
    · rename_i e; rw [e]
    · rfl
  have hb2 : FMap.set (FMap.set b.bySession s (m.set (b.heap a).id a)) s m = b.bySession := by
    funext x
    simp only [FMap.set]
    split
    · rename_i e; rw [e, hm]
    · rfl
  have e2 : unsubscribe b1 s q' (b.heap a).id = (b, .ok (newUnsubscribed q', s)) := by
    have g1 : b1.bySession s = some (m.set (b.heap a).id a) := by
      show FMap.set b.bySession s (m.set (b.heap a).id a) s = _
      simp [FMap.set]
    have g2 : (m.set (b.heap a).id a).get (b.heap a).id = some a := by rw [AMap.get_set, if_pos rfl]
    have g3 : b1.heap a = { b.heap a with subscribers := (b.heap a).subscribers ++ [s] } := by
      show hset b.heap a _ a = _
      simp [hset]
    simp only [unsubscribe, g1, g2, g3, hf, hne, hx1, hx2, if_false, set_del m (b.heap a).id a hg, Bool.false_eq_true]
    show (State.mk (hset (hset b.heap a _) a ⟨_, _, _, _⟩) _ _ (FMap.set (FMap.set b.bySession s (m.set (b.heap a).id a)) s m) _ _ _ _ _, _) = _
    rw [hb2]
    show (State.mk (hset (hset b.heap a _) a (b.heap a)) _ _ _ _ _ _ _ _, _) = _
    rw [hh2]
  simp only [step, receive, e1, e2]
  exact ⟨rfl, rfl, fun _ => trivial⟩

/-- The dealer's counterpart is in `Verif.Props.Leaving`: the broker after the session is taken out of the subscriptions `P`. -/
private def gone (s : Nat) (P : List Nat) (b : State) : State := { b with
  heap := fun p => if p ∈ P then { b.heap p with subscribers := (b.heap p).subscribers.filter (· ≠ s) } else b.heap p
  byTopic := fun t => (b.byTopic t).bind fun p => if p ∈ P ∧ (b.heap p).subscribers.filter (· ≠ s) = [] then none else some p
  tree := b.tree.filter fun e => decide (∀ p ∈ P, (b.heap p).mtch = matchPrefix → (b.heap p).topic ≠ e.1)
  wc := b.wc.filter fun e => decide (∀ p ∈ P, (b.heap p).mtch = matchWildcard → (b.heap p).topic ≠ e.1) }

private theorem del_filter {V : Type} (m : AMap Str V) (k : Str) : m.del k = m.filter fun e => decide (k ≠ e.1) := by
  induction m with
  | nil => rfl
  | cons x m ih =>
    obtain ⟨a, v⟩ := x
    simp only [AMap.del, List.filter_cons, ih]
    by_cases e : k = a
    · subst e; simp
    · simp [e]

/-- What the broker knows of a session and of its subscriptions. -/
private structure Has (b : State) (s : Nat) (m : AMap Nat Nat) : Prop where
  mine : b.bySession s = some m
  nod : m.keys.Nodup
  own : ∀ i a, m.get i = some a → b.byTopic (b.heap a).topic = some a ∧ (b.heap a).id = i
  top : ∀ t a, b.byTopic t = some a → (b.heap a).topic = t

private theorem gone_step {b : State} {s : Nat} (P : List Nat) (hb : ∀ t a, b.byTopic t = some a → (b.heap a).topic = t) {a : Nat}
    (ha : b.byTopic (b.heap a).topic = some a) (hn : a ∉ P) (f : FMap Nat (AMap Nat Nat)) :
    removeStep s { gone s P b with bySession := f } a = .ok { gone s (a :: P) b with bySession := f } := by
  have hh : (gone s P b).heap a = b.heap a := by
    show (if a ∈ P then _ else b.heap a) = _
    rw [if_neg hn]
  have hq : (gone s P b).byTopic (b.heap a).topic = some a := by
    show (b.byTopic (b.heap a).topic).bind _ = _
    rw [ha]
    simp [hn]
  have e1 : hset (gone s P b).heap a { b.heap a with subscribers := (b.heap a).subscribers.filter (· ≠ s) } = (gone s (a :: P) b).heap := by
    funext x
    show (if x = a then { b.heap a with subscribers := (b.heap a).subscribers.filter (· ≠ s) } else
        if x ∈ P then { b.heap x with subscribers := (b.heap x).subscribers.filter (· ≠ s) } else b.heap x) =
      if x ∈ a :: P then { b.heap x with subscribers := (b.heap x).subscribers.filter (· ≠ s) } else b.heap x
    by_cases hxa : x = a
    · subst hxa; simp
    · simp [hxa]
  have e2 : (if ((b.heap a).subscribers.filter (· ≠ s)).isEmpty = true then (gone s P b).byTopic.del (b.heap a).topic else (gone s P b).byTopic) =
      (gone s (a :: P) b).byTopic := by
    funext t
    have e3 : ∀ p, b.byTopic t = some p → (p = a ↔ t = (b.heap a).topic) := fun p hpt =>
      ⟨fun e => by subst e; exact (hb t p hpt).symm, fun e => by rw [e, ha] at hpt; cases hpt; rfl⟩
    show _ = (b.byTopic t).bind fun p => if p ∈ a :: P ∧ (b.heap p).subscribers.filter (· ≠ s) = [] then none else some p
    split
    · rename_i hz
      have hz' : (b.heap a).subscribers.filter (· ≠ s) = [] := List.isEmpty_iff.1 hz
      simp only [FMap.del]
      split
      · rename_i e
        rw [e, ha, Option.bind_some, if_pos ⟨List.mem_cons_self, hz'⟩]
      · rename_i e
        show (b.byTopic t).bind _ = _
        cases hpt : b.byTopic t with
        | none => rfl
        | some p =>
          have : p ≠ a := fun c => e ((e3 p hpt).1 c)
          simp [this]
    · rename_i hz
      have hz' : ¬(b.heap a).subscribers.filter (· ≠ s) = [] := fun c => hz (List.isEmpty_iff.2 c)
      show (b.byTopic t).bind _ = _
      cases hpt : b.byTopic t with
      | none => rfl
      | some p =>
        by_cases hpa : p = a
        · subst hpa
          rw [Option.bind_some, Option.bind_some, if_neg fun c => hz' c.2, if_neg fun c => hz' c.2]
        · simp [hpa]
  have e4 : ∀ (mt : Str) (l : AMap Str Nat),
      (if (b.heap a).mtch = mt then AMap.del (l.filter fun e => decide (∀ p ∈ P, (b.heap p).mtch = mt → (b.heap p).topic ≠ e.1)) (b.heap a).topic
        else l.filter fun e => decide (∀ p ∈ P, (b.heap p).mtch = mt → (b.heap p).topic ≠ e.1)) =
      l.filter fun e => decide (∀ p ∈ a :: P, (b.heap p).mtch = mt → (b.heap p).topic ≠ e.1) := by
    intro mt l
    split
    · rename_i e
      rw [del_filter, List.filter_filter]
      congr 1
      funext x
      simp [e]
    · rename_i e
      congr 1
      funext x
      simp [e]
  unfold removeStep
  rw [show ({ gone s P b with bySession := f } : State).heap = (gone s P b).heap from rfl,
    show ({ gone s P b with bySession := f } : State).byTopic = (gone s P b).byTopic from rfl]
  dsimp only
  rw [hh, hq]
  dsimp only
  rw [hh, e1, e2]
  have t1 := e4 matchPrefix b.tree
  have t2 := e4 matchWildcard b.wc
  show Res.ok (State.mk _ _ _ _ _ (if (b.heap a).mtch = matchPrefix then AMap.del (gone s P b).tree (b.heap a).topic else (gone s P b).tree)
    (if (b.heap a).mtch = matchWildcard then AMap.del (gone s P b).wc (b.heap a).topic else (gone s P b).wc) _ _) = _
  simp only [gone] at t1 t2 ⊢
  rw [t1, t2]

private theorem gone_loop {b : State} {s : Nat} (hb : ∀ t a, b.byTopic t = some a → (b.heap a).topic = t) (f : FMap Nat (AMap Nat Nat)) :
    ∀ (as P : List Nat), as.Nodup → (∀ a ∈ as, a ∉ P) → (∀ a ∈ as, b.byTopic (b.heap a).topic = some a) →
    removeLoop s { gone s P b with bySession := f } as = .ok { gone s (as.reverse ++ P) b with bySession := f }
  | [], P, _, _, _ => rfl
  | a :: as, P, hn, hd, h => by
    obtain ⟨hn1, hn2⟩ := List.nodup_cons.1 hn
    simp only [removeLoop, gone_step P hb (h a List.mem_cons_self) (hd a List.mem_cons_self) f, Res.bind_ok]
    rw [gone_loop hb f as (a :: P) hn2 (fun x hx c => (List.mem_cons.1 c).elim (fun e => hn1 (e ▸ hx)) (hd x (List.mem_cons_of_mem _ hx)))
      fun x hx => h x (List.mem_cons_of_mem _ hx)]
    simp

private theorem gone_congr {s : Nat} {P P' : List Nat} {b : State} (h : ∀ p, p ∈ P ↔ p ∈ P') : gone s P b = gone s P' b := by
  simp only [gone, h]

private theorem gone_nil (s : Nat) (b : State) : gone s [] b = b := by
  have h1 : (fun t => (b.byTopic t).bind fun p => if p ∈ ([] : List Nat) ∧ (b.heap p).subscribers.filter (· ≠ s) = [] then none else some p) =
      b.byTopic := by
    funext t
    cases b.byTopic t <;> simp
  have h2 : ∀ (mt : Str) (l : AMap Str Nat), (l.filter fun e => decide (∀ p ∈ ([] : List Nat), (b.heap p).mtch = mt → (b.heap p).topic ≠ e.1)) = l := by
    intro mt l
    rw [List.filter_eq_self]
    intro x _
    simp
  simp only [gone, h1, h2]
  simp

/-- The session's subscription objects. -/
private def ptrs (m : AMap Nat Nat) : List Nat := m.keys.filterMap m.get

private theorem mem_ptrs (m : AMap Nat Nat) (a : Nat) : a ∈ ptrs m ↔ ∃ i, m.get i = some a := by
  simp only [ptrs, List.mem_filterMap]
  exact ⟨fun ⟨i, _, h⟩ => ⟨i, h⟩, fun ⟨i, h⟩ => ⟨i, (AMap.mem_keys m i).2 (by rw [h]; rfl), h⟩⟩

private theorem nodup_filterMap {f : Nat → Option Nat} (hf : ∀ i j a, f i = some a → f j = some a → i = j) : ∀ {l : List Nat}, l.Nodup →
    (l.filterMap f).Nodup
  | [], _ => List.nodup_nil
  | i :: l, h => by
    obtain ⟨h1, h2⟩ := List.nodup_cons.1 h
    rw [List.filterMap_cons]
    cases hi : f i with
    | none => exact nodup_filterMap hf h2
    | some a =>
      refine List.nodup_cons.2 ⟨fun c => ?_, nodup_filterMap hf h2⟩
      obtain ⟨j, hj, hja⟩ := List.mem_filterMap.1 c
      exact h1 (hf i j a hi hja ▸ hj)

private theorem Has.remove {b : State} {s : Nat} {m : AMap Nat Nat} (h : Has b s m) (o : List Nat) :
    removeSession b s o = ({ gone s (ptrs m) b with bySession := b.bySession.del s, sessions := b.sessions.del s }, .ok ()) := by
  have hl := gone_loop (s := s) h.top (b.bySession.del s) ((arrange o m.keys).filterMap m.get) []
    (nodup_filterMap (fun i j a hi hj => (h.own i a hi).2.symm.trans (h.own j a hj).2) (nodup_arrange o h.nod))
    (fun _ _ => List.not_mem_nil) (fun a ha => by
      obtain ⟨i, -, hi⟩ := List.mem_filterMap.1 ha
      exact (h.own i a hi).1)
  rw [gone_nil] at hl
  have hc : gone s (((arrange o m.keys).filterMap m.get).reverse ++ []) b = gone s (ptrs m) b := by
    apply gone_congr
    intro p
    simp [ptrs, mem_arrange]
  rw [hc] at hl
  simp only [removeSession, h.mine, hl]
  rfl

/-- Giving up one subscription and leaving is the same as leaving. -/
private theorem one {b : State} {s : Nat} {m : AMap Nat Nat} (h : Has b s m) {i a : Nat} (hg : m.get i = some a) (q : Nat) (o o' : List Nat)
    (later : List Op) :
    ∃ b1, unsubscribe b s q i = (b1, .ok (newUnsubscribed q, s)) ∧ Has b1 s (m.del i) ∧
      replies w b1 (.remove s o :: later) = replies w b (.remove s o' :: later) := by
  obtain ⟨ht, hid⟩ := h.own i a hg
  have hpa : a ∈ ptrs m := (mem_ptrs m a).2 ⟨i, hg⟩
  let g : Sub := { b.heap a with subscribers := (b.heap a).subscribers.filter (· ≠ s) }
  let b1 : State := { b with
    heap := hset b.heap a g
    byTopic := if g.subscribers.isEmpty then b.byTopic.del g.topic else b.byTopic
    tree := if g.mtch = matchPrefix then b.tree.del g.topic else b.tree
    wc := if g.mtch = matchWildcard then b.wc.del g.topic else b.wc
    bySession := b.bySession.set s (m.del i) }
  have hx : ∀ a', a' ≠ a → b1.heap a' = b.heap a' := fun a' hne => by
    show hset b.heap a g a' = _
    simp [hset, hne]
  have hxa : b1.heap a = g := by
    show hset b.heap a g a = _
    simp [hset]
  have hto : ∀ p, (b1.heap p).topic = (b.heap p).topic := fun p => by
    by_cases hp : p = a
    · subst hp; rw [hxa]
    · rw [hx p hp]
  have hmt : ∀ p, (b1.heap p).mtch = (b.heap p).mtch := fun p => by
    by_cases hp : p = a
    · subst hp; rw [hxa]
    · rw [hx p hp]
  have e1 : unsubscribe b s q i = (b1, .ok (newUnsubscribed q, s)) := by
    have e : unsubscribe b s q i = ({ b1 with bySession := b.bySession.set s (m.del (b.heap a).id) }, .ok (newUnsubscribed q, s)) := by
      simp only [unsubscribe, h.mine, hg]
      rfl
    rw [e, hid]
  have hby : ∀ t p, p ≠ a → (b1.byTopic t = some p ↔ b.byTopic t = some p) := by
    intro t p hp
    show (if g.subscribers.isEmpty = true then b.byTopic.del g.topic else b.byTopic) t = some p ↔ _
    split
    · simp only [FMap.del]
      split
      · rename_i e
        have e : t = (b.heap a).topic := e
        rw [e, ht]
        constructor
        · intro c; cases c
        · intro c; cases c; exact absurd rfl hp
      · exact Iff.rfl
    · exact Iff.rfl
  have hsub : ∀ t p, b1.byTopic t = some p → b.byTopic t = some p := by
    intro t p c
    have c : (if g.subscribers.isEmpty = true then b.byTopic.del g.topic else b.byTopic) t = some p := c
    split at c
    · simp only [FMap.del] at c
      split at c
      · cases c
      · exact c
    · exact c
  have h1 : Has b1 s (m.del i) := by
    refine ⟨?_, AMap.nodup_del h.nod i, ?_, ?_⟩
    · show FMap.set b.bySession s (m.del i) s = _
      simp [FMap.set]
    · intro j a' hj
      rw [AMap.get_del] at hj
      split at hj
      · cases hj
      · rename_i e
        obtain ⟨h1, h2⟩ := h.own j a' hj
        have hne : a' ≠ a := by
          intro c
          subst c
          exact e (h2.symm.trans hid)
        rw [hx a' hne]
        exact ⟨(hby _ a' hne).2 h1, h2⟩
    · intro t a' hb
      rw [hto]
      exact h.top t a' (hsub t a' hb)
  refine ⟨b1, e1, h1, ?_⟩
  have hmp : ∀ p, p ∈ ptrs (m.del i) ↔ p ∈ ptrs m ∧ p ≠ a := by
    intro p
    rw [mem_ptrs, mem_ptrs]
    constructor
    · rintro ⟨j, hj⟩
      rw [AMap.get_del] at hj
      split at hj
      · cases hj
      · rename_i e
        exact ⟨⟨j, hj⟩, fun c => e ((h.own j p hj).2.symm.trans (c ▸ hid))⟩
    · rintro ⟨⟨j, hj⟩, hpn⟩
      refine ⟨j, ?_⟩
      rw [AMap.get_del, if_neg]
      · exact hj
      · intro c
        rw [c, hg] at hj
        cases hj
        exact hpn rfl
  have hna : a ∉ ptrs (m.del i) := fun c => ((hmp a).1 c).2 rfl
  have k1 : (gone s (ptrs (m.del i)) b1).heap = (gone s (ptrs m) b).heap := by
    funext p
    show (if p ∈ ptrs (m.del i) then { b1.heap p with subscribers := (b1.heap p).subscribers.filter (· ≠ s) } else b1.heap p) =
      if p ∈ ptrs m then { b.heap p with subscribers := (b.heap p).subscribers.filter (· ≠ s) } else b.heap p
    by_cases hp : p = a
    · subst hp
      rw [if_neg hna, if_pos hpa, hxa]
    · rw [hx p hp]
      simp only [hmp, hp, ne_eq, not_false_eq_true, and_true]
  have k2 : (gone s (ptrs (m.del i)) b1).byTopic = (gone s (ptrs m) b).byTopic := by
    funext t
    show (b1.byTopic t).bind (fun p => if p ∈ ptrs (m.del i) ∧ (b1.heap p).subscribers.filter (· ≠ s) = [] then none else some p) =
      (b.byTopic t).bind fun p => if p ∈ ptrs m ∧ (b.heap p).subscribers.filter (· ≠ s) = [] then none else some p
    cases hb : b.byTopic t with
    | none =>
      cases hb1 : b1.byTopic t with
      | none => rfl
      | some p => rw [hsub t p hb1] at hb; cases hb
    | some p =>
      by_cases hp : p = a
      · subst hp
        have htt := h.top t p hb
        by_cases hz : (b.heap p).subscribers.filter (· ≠ s) = []
        · have : b1.byTopic t = none := by
            show (if g.subscribers.isEmpty = true then b.byTopic.del g.topic else b.byTopic) t = none
            rw [if_pos (List.isEmpty_iff.2 hz)]
            simp [FMap.del, g, htt]
          rw [this, Option.bind_some, if_pos ⟨hpa, hz⟩]
          rfl
        · have : b1.byTopic t = some p := by
            show (if g.subscribers.isEmpty = true then b.byTopic.del g.topic else b.byTopic) t = some p
            rw [if_neg fun c => hz (List.isEmpty_iff.1 c)]
            exact hb
          rw [this, Option.bind_some, Option.bind_some, if_neg fun c => hna c.1, if_neg fun c => hz c.2]
      · rw [(hby t p hp).2 hb]
        simp only [Option.bind_some, hx p hp, hmp, hp, ne_eq, not_false_eq_true, and_true]
  have k3 : ∀ (mt : Str) (l : AMap Str Nat),
      ((if (b.heap a).mtch = mt then l.del (b.heap a).topic else l).filter fun e =>
        decide (∀ p ∈ ptrs (m.del i), (b1.heap p).mtch = mt → (b1.heap p).topic ≠ e.1)) =
      l.filter fun e => decide (∀ p ∈ ptrs m, (b.heap p).mtch = mt → (b.heap p).topic ≠ e.1) := by
    intro mt l
    have hall : ∀ e : Str × Nat, (∀ p ∈ ptrs m, (b.heap p).mtch = mt → (b.heap p).topic ≠ e.1) ↔
        (∀ p ∈ ptrs (m.del i), (b1.heap p).mtch = mt → (b1.heap p).topic ≠ e.1) ∧ ((b.heap a).mtch = mt → (b.heap a).topic ≠ e.1) := by
      intro e
      constructor
      · exact fun c => ⟨fun p hp => by rw [hmt, hto]; exact c p ((hmp p).1 hp).1, c a hpa⟩
      · rintro ⟨c1, c2⟩ p hp
        by_cases hpa' : p = a
        · subst hpa'; exact c2
        · have := c1 p ((hmp p).2 ⟨hp, hpa'⟩)
          rw [hmt, hto] at this
          exact this
    split
    · rename_i hw
      rw [del_filter, List.filter_filter]
      congr 1
      funext e
      rw [← Bool.decide_and, decide_eq_decide, hall e]
      exact ⟨fun ⟨c1, c2⟩ => ⟨c1, fun _ => c2⟩, fun ⟨c1, c2⟩ => ⟨c1, c2 hw⟩⟩
    · rename_i hw
      congr 1
      funext e
      rw [decide_eq_decide, hall e]
      exact ⟨fun c1 => ⟨c1, fun c => absurd c hw⟩, fun c => c.1⟩
  have k4 : b1.bySession.del s = b.bySession.del s := by
    funext x
    show FMap.del (FMap.set b.bySession s _) s x = _
    simp only [FMap.del, FMap.set]
    split <;> rfl
  have key : ({ gone s (ptrs (m.del i)) b1 with bySession := b1.bySession.del s, sessions := b1.sessions.del s } : State) =
      { gone s (ptrs m) b with bySession := b.bySession.del s, sessions := b.sessions.del s } := by
    have t1 : (gone s (ptrs (m.del i)) b1).tree = (gone s (ptrs m) b).tree := k3 matchPrefix b.tree
    have t2 : (gone s (ptrs (m.del i)) b1).wc = (gone s (ptrs m) b).wc := k3 matchWildcard b.wc
    show State.mk (gone s (ptrs (m.del i)) b1).heap _ (gone s (ptrs (m.del i)) b1).byTopic (b1.bySession.del s) _
      (gone s (ptrs (m.del i)) b1).tree (gone s (ptrs (m.del i)) b1).wc _ _ = _
    rw [k1, k2, k4, t1, t2]
    rfl
  simp only [replies, step, h1.remove o, h.remove o', Res.map_ok, key]

private theorem every {s : Nat} (q : Nat → Nat) (o o' : List Nat) (later : List Op) : ∀ (ids : List Nat) {b : State} {m : AMap Nat Nat},
    ids.Nodup → Has b s m → (∀ i ∈ ids, (m.get i).isSome = true) →
    replies w b (ids.map (fun i => .receive s (.unsubscribe (q i) i)) ++ .remove s o :: later) =
      ids.map (fun i => .ok (.msg (.unsubscribed (q i)) s)) ++ replies w b (.remove s o' :: later)
  | [], b, m, _, h, _ => by
    simp only [List.map_nil, List.nil_append, replies, step, h.remove o, h.remove o', Res.map_ok]
  | i :: ids, b, m, hn, h, hi => by
    obtain ⟨hni, hn'⟩ := List.nodup_cons.1 hn
    obtain ⟨a, hg⟩ := Option.isSome_iff_exists.1 (hi i List.mem_cons_self)
    obtain ⟨b1, e1, h1, hq⟩ := one (w := w) h hg (q i) o' o' later
    have ih := every q o o' later ids hn' h1 (fun j hj => by
      rw [AMap.get_del, if_neg (fun c : j = i => hni (c ▸ hj))]
      exact hi j (List.mem_cons_of_mem _ hj))
    rw [hq] at ih
    simp only [List.map_cons, List.cons_append, replies, step, receive, e1, Res.map_ok]
    rw [ih]
    rfl

/-- **C164.** Leaving is the same as giving up any of one's subscriptions, one after the other, and leaving then: the UNSUBSCRIBEs are answered,
and after both all calls return the same, whatever the order in which `RemoveSession` visits the subscriptions. -/
theorem C164_leave {h : List Event} {b : State} (hh : Hist w h b) (hlen : h.length ≤ 2 ^ 53) {s : Nat} (ha : attached h s) (ids : List Nat)
    (hn : ids.Nodup) (hi : ∀ i ∈ ids, ∃ t, current h s t = some i) (q : Nat → Nat) (order order' : List Nat) (later : List Op) :
    replies w b (ids.map (fun i => .receive s (.unsubscribe (q i) i)) ++ .remove s order :: later) =
      ids.map (fun i => .ok (.msg (.unsubscribed (q i)) s)) ++ replies w b (.remove s order' :: later) := by
  have hv := hist_inv hh hlen
  obtain ⟨m, hm⟩ : ∃ m, b.bySession s = some m := by
    have := hv.bys s
    rw [ha] at this
    exact Option.isSome_iff_exists.1 this
  refine every q order order' later ids hn
    ⟨hm, hv.nod s m hm, fun i a hg => ⟨(hv.ses s m i a hm hg).1, (hv.ses s m i a hm hg).2.1⟩, fun t a hb => (hv.top t a hb).1⟩ fun i hx => ?_
  obtain ⟨t, hc⟩ := hi i hx
  obtain ⟨a, ht, hid, hs⟩ := (hv.cur s t i).1 hc
  obtain ⟨m', hm', hg⟩ := hv.ses' t a s ht hs
  rw [hm] at hm'
  cases hm'
  rw [← hid, hg]
  rfl

namespace Again

/-- `AddSession` for session `n`. -/
def comes (n : Nat) : Op := .add ⟨n, [], [], [], [], false, none, none⟩
/-- SUBSCRIBE by `s`. -/
def wants (s : Nat) (t : String) : Op := .receive s (.subscribe 1 none (str t))
/-- SUBSCRIBE by `s` for a prefix. -/
def prefixed (s : Nat) (t : String) : Op := .receive s (.subscribe 1 (some [(str "match", .str (str "prefix"))]) (str t))
/-- PUBLISH by `s`. -/
def tells (s : Nat) (t : String) : Op := .publish s 1 none (str t) none none [] []
/-- The recipients of the publications. -/
def reached (l : List (Res Out)) : List (List Nat) := l.filterMap fun | .ok (.pub p) => some p.recipients | _ => none

end Again
open Again

/-- Session 1 is subscribed to `t` under ID 1 and to `u` under ID 2, session 2 to `t`; session 3 is attached. -/
example : let h := (exec (fun _ _ => false) ([], init) [comes 1, comes 2, comes 3, wants 1 "t", wants 1 "u", wants 2 "t"]).1
    current h 1 (str "t") = some 1 ∧ current h 1 (str "u") = some 2 ∧ current h 3 (str "t") = none ∧ live h (str "t") ∧ attached h 3 ∧
      policy h 1 = some [] := by
  refine ⟨by decide +kernel, by decide +kernel, by decide +kernel, ⟨1, 1, by decide +kernel⟩, by unfold attached; decide +kernel, by decide +kernel⟩

/-- For patterns changing one's mind is noticed: when session 3 subscribes to the prefix `a` and unsubscribes, session 1, which is subscribed to
it too, misses the next event (C72). -/
theorem C164_undo_refuted : let b := (exec (fun _ _ => false) ([], init) [comes 1, comes 2, comes 3, prefixed 1 "a"]).2
    reached (replies (fun _ _ => false) b [tells 2 "ab"]) = [[1]] ∧
    reached (replies (fun _ _ => false) b [prefixed 3 "a", .receive 3 (.unsubscribe 1 1), tells 2 "ab"]) = [[]] := by
  decide +kernel

end Wamp.Broker
