import Verif.Spec.Uris
import Verif.Props.AsNew
import Verif.Props.PathMatch
/-!
# C161: topics and procedures are only names
-/
namespace Wamp.Uris
variable {w : Str → Str → Bool} {f : Str → Str}

private theorem inj (hf : Distinct f) {a b : Str} : f a = f b ↔ a = b := ⟨hf a b, fun h => h ▸ rfl⟩

/-- A table indexed by names. -/
private noncomputable def tab (f : Str → Str) {V : Type} (m : FMap Str V) : FMap Str V := fun t =>
  open Classical in if h : ∃ u, f u = t then m h.choose else none

private theorem tab_new (hf : Distinct f) {V : Type} (m : FMap Str V) (t : Str) : tab f m (f t) = m t := by
  have h : ∃ u, f u = f t := ⟨t, rfl⟩
  simp only [tab, dif_pos h]
  rw [hf _ _ h.choose_spec]

private theorem tab_not {V : Type} (m : FMap Str V) (t : Str) (h : ¬∃ u, f u = t) : tab f m t = none := by
  simp only [tab, dif_neg h]

private theorem tab_set (hf : Distinct f) {V : Type} (m : FMap Str V) (t : Str) (v : V) : FMap.set (tab f m) (f t) v = tab f (FMap.set m t v) := by
  funext x
  by_cases h : ∃ u, f u = x
  · obtain ⟨u, rfl⟩ := h
    simp only [FMap.set, tab_new hf, inj hf]
  · rw [tab_not _ _ h]
    simp only [FMap.set, tab_not _ _ h]
    rw [if_neg]
    intro e; exact h ⟨t, e.symm⟩

private theorem tab_del (hf : Distinct f) {V : Type} (m : FMap Str V) (t : Str) : FMap.del (tab f m) (f t) = tab f (FMap.del m t) := by
  funext x
  by_cases h : ∃ u, f u = x
  · obtain ⟨u, rfl⟩ := h
    simp only [FMap.del, tab_new hf, inj hf]
  · rw [tab_not _ _ h]
    simp only [FMap.del, tab_not _ _ h, ite_self]

private theorem tab_empty {V : Type} : tab f (FMap.empty : FMap Str V) = FMap.empty := by
  funext x
  simp only [tab, FMap.empty]
  split <;> rfl

/-- A table that is listed. -/
private def keyed (f : Str → Str) {V : Type} (m : AMap Str V) : AMap Str V := m.map fun x => (f x.1, x.2)

private theorem get_keyed (hf : Distinct f) {V : Type} (m : AMap Str V) (t : Str) : AMap.get (keyed f m) (f t) = AMap.get m t := by
  induction m with
  | nil => rfl
  | cons x m ih =>
    simp only [keyed, List.map_cons, AMap.get, inj hf]
    split
    · rfl
    · exact ih

private theorem get_keyed_not {V : Type} (m : AMap Str V) (t : Str) (h : ¬∃ u, f u = t) : AMap.get (keyed f m) t = none := by
  induction m with
  | nil => rfl
  | cons x m ih =>
    simp only [keyed, List.map_cons, AMap.get]
    rw [if_neg (fun e => h ⟨x.1, e.symm⟩)]
    exact ih

private theorem del_keyed (hf : Distinct f) {V : Type} (m : AMap Str V) (t : Str) : AMap.del (keyed f m) (f t) = keyed f (AMap.del m t) := by
  induction m with
  | nil => rfl
  | cons x m ih =>
    have ih' : AMap.del (m.map fun x => (f x.1, x.2)) (f t) = (AMap.del m t).map fun x => (f x.1, x.2) := ih
    simp only [keyed, List.map_cons, AMap.del, inj hf, ih']
    split <;> rfl

private theorem set_keyed (hf : Distinct f) {V : Type} (m : AMap Str V) (t : Str) (v : V) : AMap.set (keyed f m) (f t) v = keyed f (AMap.set m t v) := by
  induction m with
  | nil => rfl
  | cons x m ih =>
    have ih' : AMap.set (m.map fun x => (f x.1, x.2)) (f t) v = (AMap.set m t v).map fun x => (f x.1, x.2) := ih
    simp only [keyed, List.map_cons, AMap.set, inj hf, ih']
    split <;> rfl

private theorem keys_keyed {V : Type} (m : AMap Str V) : (keyed f m).keys = m.keys.map f := by
  simp only [keyed, AMap.keys, List.map_map]
  rfl

private theorem longest_keyed (hf : Distinct f) (hp : ∀ p n, p <+: n ↔ f p <+: f n) {V : Type} (m : AMap Str V) (t : Str) :
    longestPrefix (keyed f m) (f t) = longestPrefix m t := by
  cases h : longestPrefix m t with
  | none =>
    cases h' : longestPrefix (keyed f m) (f t) with
    | none => rfl
    | some v =>
      obtain ⟨p, h1, h2, _⟩ := longestPrefix_some h'
      by_cases he : ∃ u, f u = p
      · obtain ⟨u, rfl⟩ := he
        rw [get_keyed hf, longestPrefix_none h u ((hp _ _).2 h1)] at h2
        cases h2
      · rw [get_keyed_not _ _ he] at h2; cases h2
  | some v =>
    obtain ⟨p, h1, h2, h3⟩ := longestPrefix_some h
    cases h' : longestPrefix (keyed f m) (f t) with
    | none =>
      have := longestPrefix_none h' (f p) ((hp _ _).1 h1)
      rw [get_keyed hf, h2] at this
      cases this
    | some v' =>
      obtain ⟨q, g1, g2, g3⟩ := longestPrefix_some h'
      by_cases he : ∃ u, f u = q
      · obtain ⟨u, rfl⟩ := he
        rw [get_keyed hf] at g2
        have hu := (hp _ _).2 g1
        have l1 := h3 u hu (by rw [g2]; rfl)
        have l2 := g3 (f p) ((hp _ _).1 h1) (by rw [get_keyed hf, h2]; rfl)
        have l3 : u <+: p := List.prefix_of_prefix_length_le hu h1 l1
        have l4 : f p <+: f u := List.prefix_of_prefix_length_le ((hp _ _).1 h1) g1 l2
        have l5 : p <+: u := (hp _ _).2 l4
        have : u = p := l3.eq_of_length (Nat.le_antisymm l3.length_le l5.length_le)
        rw [this, h2] at g2
        exact g2.symm
      · rw [get_keyed_not _ _ he] at g2; cases g2

private theorem wildcard_keyed (hf : Distinct f) (hw : ∀ n p, w (f n) (f p) = w n p) {V : Type} (o : List Str) (m : AMap Str V) (t : Str) :
    firstWildcard w (o.map f) (keyed f m) (f t) = firstWildcard w o m t := by
  simp only [firstWildcard, keys_keyed, arrange_map f hf, List.find?_map, Option.bind_map]
  have : ((fun pattern => w (f t) pattern) ∘ f) = fun pattern => w t pattern := by funext p; exact hw _ _
  rw [this]
  congr 1
  funext p
  exact get_keyed hf m p

private theorem under_dset (k : String) (k' : Str) (v : Val) (hk : k' ≠ str k) (d : Dict) : under f k (dset d k' v) = dset (under f k d) k' v := by
  induction d with
  | nil => simp [dset, under, hk]
  | cons x d ih =>
    obtain ⟨a, b⟩ := x
    have hc : ∀ (x : Str × Val) (d : Dict), under f k (x :: d) = (x.1, if x.1 = str k then (match x.2 with | .str t => .str (f t) | v => v) else x.2) :: under f k d :=
      fun _ _ => rfl
    by_cases h1 : k' = a
    · subst h1
      simp only [dset, if_true, hc, hk, if_false]
    · by_cases h2 : strLt k' a = true
      · simp only [dset, h1, if_false, h2, if_true, hc, hk]
      · simp only [dset, h1, if_false, h2, hc, ih, Bool.false_eq_true]

/-- Lookups give the same results: patterns are kept, or there are none. -/
private def Fit (w : Str → Str → Bool) (f : Str → Str) {V : Type} (tree wc : AMap Str V) : Prop := Keeps f w ∨ tree = [] ∧ wc = []

private theorem fit_longest (hf : Distinct f) {V : Type} {tree wc : AMap Str V} (h : Fit w f tree wc) (t : Str) :
    longestPrefix (keyed f tree) (f t) = longestPrefix tree t := by
  rcases h with h | ⟨rfl, rfl⟩
  · exact longest_keyed hf h.1 ..
  · have h0 : ∀ t : Str, longestPrefix ([] : AMap Str V) t = none := by
      intro t
      cases h : longestPrefix ([] : AMap Str V) t with
      | none => rfl
      | some v => obtain ⟨p, _, h2, _⟩ := longestPrefix_some h; cases h2
    show longestPrefix ([] : AMap Str V) _ = _
    rw [h0, h0]

private theorem fit_wildcard (hf : Distinct f) {V : Type} {tree wc : AMap Str V} (h : Fit w f tree wc) (o : List Str) (t : Str) :
    firstWildcard w (o.map f) (keyed f wc) (f t) = firstWildcard w o wc t := by
  rcases h with h | ⟨rfl, rfl⟩
  · exact wildcard_keyed hf h.2 ..
  · have h0 : ∀ o t, firstWildcard w o ([] : AMap Str V) t = none := by
      intro o t
      simp only [firstWildcard, AMap.get]
      cases List.find? (fun pattern => w t pattern) (arrange o (AMap.keys ([] : AMap Str V))) <;> rfl
    show firstWildcard w _ ([] : AMap Str V) _ = _
    rw [h0, h0]

end Wamp.Uris

namespace Wamp.Broker
open Uris
variable {w : Str → Str → Bool} {f : Str → Str}

private def Sub.called (f : Str → Str) (x : Sub) : Sub := { x with topic := f x.topic }

/-- The broker with the new names. -/
private noncomputable def State.called (f : Str → Str) (b : State) : State :=
  { b with
    heap := fun a => if a < b.next then (b.heap a).called f else b.heap a
    byTopic := tab f b.byTopic
    tree := keyed f b.tree
    wc := keyed f b.wc }

/-- Pointers point to objects. -/
private structure Low (b : State) : Prop where
  top : ∀ t p, b.byTopic t = some p → p < b.next
  bys : ∀ s m i p, b.bySession s = some m → m.get i = some p → p < b.next

private theorem low_init : Low init := ⟨fun _ _ h => (by cases h), fun _ _ _ _ h => (by cases h)⟩

private theorem low_removeStep {s a : Nat} {b b' : State} (h : Low b) (e : removeStep s b a = .ok b') : Low b' ∧ b'.next = b.next := by
  simp only [removeStep] at e
  split at e
  · cases e
  · cases e
    refine ⟨⟨fun t p hp => ?_, h.bys⟩, rfl⟩
    simp only at hp
    split at hp
    · simp only [FMap.del] at hp
      split at hp
      · cases hp
      · exact h.top t p hp
    · exact h.top t p hp

private theorem low_removeLoop {s : Nat} (l : List Nat) : ∀ {b b' : State}, Low b → removeLoop s b l = .ok b' → Low b' := by
  induction l with
  | nil => intro b b' h e; cases e; exact h
  | cons a l ih =>
    intro b b' h e
    simp only [removeLoop] at e
    cases hr : removeStep s b a with
    | ok b1 => rw [hr] at e; exact ih (low_removeStep h hr).1 e
    | err => rw [hr] at e; cases e
    | panic => rw [hr] at e; cases e

private theorem low_step {b : State} (h : Low b) (op : Op) : Low (step w b op).1 := by
  have hset : ∀ (s : Nat) (m : AMap Nat Nat) (n : Nat), b.next ≤ n → (∀ i p, m.get i = some p → p < n) →
      ∀ s' m' i p, FMap.set b.bySession s m s' = some m' → m'.get i = some p → p < n := by
    intro s m n hn hm s' m' i p h1 h2
    simp only [FMap.set] at h1
    split at h1
    · cases h1; exact hm i p h2
    · exact Nat.lt_of_lt_of_le (h.bys s' m' i p h1 h2) hn
  cases op with
  | add d =>
    simp only [step, addSession]
    split
    · exact h
    · exact ⟨h.top, hset _ _ _ (Nat.le_refl _) (fun _ _ h => by cases h)⟩
  | remove s o =>
    simp only [step, removeSession]
    split
    · exact h
    · split
      · rename_i b' hb'
        have := low_removeLoop _ (b := { b with bySession := b.bySession.del s }) ⟨h.top, fun s' m i p h1 h2 => ?_⟩ hb'
        · exact ⟨this.top, this.bys⟩
        · simp only [FMap.del] at h1
          split at h1
          · cases h1
          · exact h.bys s' m i p h1 h2
      · exact h
      · exact h
  | has t => exact h
  | disclose on => exact ⟨h.top, h.bys⟩
  | receive s m =>
    cases m with
    | subscribe q o t =>
      simp only [step, receive, subscribe]
      split
      · exact h
      · rename_i m hm
        split
        · rename_i p hp
          refine ⟨h.top, hset _ _ _ (Nat.le_refl _) (fun i p' hg => ?_)⟩
          rw [AMap.get_set] at hg
          split at hg
          · cases hg; exact h.top _ _ hp
          · exact h.bys _ _ _ _ hm hg
        · refine ⟨fun t' p hp => ?_, hset _ _ _ (Nat.le_succ _) (fun i p' hg => ?_)⟩
          · simp only [FMap.set] at hp
            split at hp
            · cases hp; exact Nat.lt_succ_self _
            · exact Nat.lt_succ_of_lt (h.top _ _ hp)
          · rw [AMap.get_set] at hg
            split at hg
            · cases hg; exact Nat.lt_succ_self _
            · exact Nat.lt_succ_of_lt (h.bys _ _ _ _ hm hg)
    | unsubscribe q i =>
      simp only [step, receive, unsubscribe]
      split
      · exact h
      · rename_i m hm
        split
        · exact h
        · refine ⟨fun t p hp => ?_, hset _ _ _ (Nat.le_refl _) (fun i p' hg => ?_)⟩
          · simp only at hp
            split at hp
            · simp only [FMap.del] at hp
              split at hp
              · cases hp
              · exact h.top _ _ hp
            · exact h.top _ _ hp
          · rw [AMap.get_del] at hg
            split at hg
            · cases hg
            · exact h.bys _ _ _ _ hm hg
    | _ => exact h
  | publish s q o t a k wo so =>
    simp only [step, publish]
    split
    · exact h
    · split
      · exact ⟨h.top, h.bys⟩
      · split
        · exact ⟨h.top, h.bys⟩
        · split <;> exact ⟨h.top, h.bys⟩

private theorem heap_called {b : State} {p : Nat} (hp : p < b.next) : (b.called f).heap p = (b.heap p).called f := by
  simp only [State.called, if_pos hp]

private theorem heap_id (b : State) (p : Nat) : ((b.called f).heap p).id = (b.heap p).id := by
  simp only [State.called]; split <;> rfl

private theorem heap_subs (b : State) (p : Nat) : ((b.called f).heap p).subscribers = (b.heap p).subscribers := by
  simp only [State.called]; split <;> rfl

private theorem hset_called (h : Nat → Sub) (n a : Nat) (x : Sub) (ha : a < n) :
    hset (fun a => if a < n then (h a).called f else h a) a (x.called f) = fun b => if b < n then (hset h a x b).called f else hset h a x b := by
  funext b
  simp only [hset]
  by_cases e : b = a
  · subst e; simp only [if_true, if_pos ha]
  · simp only [if_neg e]

private theorem hset_new (h : Nat → Sub) (n : Nat) (x : Sub) :
    hset (fun a => if a < n then (h a).called f else h a) n (x.called f) = fun b => if b < n + 1 then (hset h n x b).called f else hset h n x b := by
  funext b
  simp only [hset]
  by_cases e : b = n
  · subst e; simp only [if_true, if_pos (Nat.lt_succ_self _)]
  · simp only [if_neg e]
    by_cases h1 : b < n
    · rw [if_pos h1, if_pos (Nat.lt_succ_of_lt h1)]
    · rw [if_neg h1, if_neg (by omega)]

private theorem addSession_called (b : State) (d : SessionDetails) : addSession (b.called f) d = ((addSession b d).1.called f, (addSession b d).2) := by
  unfold addSession
  show (if (b.bySession d.id).isSome = true then _ else _) = _
  split <;> rfl

private theorem removeStep_called (hf : Distinct f) (s : Nat) (b : State) (hb : Low b) (a : Nat) (ha : a < b.next) :
    removeStep s (b.called f) a = (removeStep s b a).map (State.called f) := by
  unfold removeStep
  have h : (b.called f).byTopic ((b.called f).heap a).topic = b.byTopic (b.heap a).topic := by rw [heap_called ha]; exact tab_new hf ..
  simp only [h]
  cases hp : b.byTopic (b.heap a).topic with
  | none => rfl
  | some p =>
    have lp := hb.top _ _ hp
    simp only [heap_called ha, heap_called lp]
    refine congrArg Res.ok ?_
    show State.mk (hset (fun a => if a < b.next then (b.heap a).called f else b.heap a) p (Sub.called f { b.heap p with subscribers := (b.heap p).subscribers.filter (· ≠ s) })) _
      (if (List.filter (fun x => decide (x ≠ s)) (b.heap p).subscribers).isEmpty = true then FMap.del (tab f b.byTopic) (f (b.heap a).topic) else _) _ _
      (if (b.heap p).mtch = matchPrefix then AMap.del (keyed f b.tree) (f (b.heap p).topic) else _)
      (if (b.heap p).mtch = matchWildcard then AMap.del (keyed f b.wc) (f (b.heap a).topic) else _) _ _ = _
    rw [hset_called _ _ _ _ lp, tab_del hf, del_keyed hf, del_keyed hf]
    unfold State.called
    congr 1 <;> (split <;> rfl)

private theorem removeLoop_called (hf : Distinct f) (s : Nat) (l : List Nat) (b : State) (hb : Low b) (hl : ∀ a ∈ l, a < b.next) :
    removeLoop s (b.called f) l = (removeLoop s b l).map (State.called f) := by
  induction l generalizing b with
  | nil => rfl
  | cons a l ih =>
    simp only [removeLoop, removeStep_called hf s b hb a (hl a (List.mem_cons_self ..))]
    cases hr : removeStep s b a with
    | ok b' =>
      obtain ⟨h1, h2⟩ := low_removeStep hb hr
      exact ih b' h1 (fun a ha => h2 ▸ hl a (List.mem_cons_of_mem _ ha))
    | err => rfl
    | panic => rfl

private theorem removeSession_called (hf : Distinct f) (b : State) (hb : Low b) (s : Nat) (o : List Nat) :
    removeSession (b.called f) s o = ((removeSession b s o).1.called f, (removeSession b s o).2) := by
  unfold removeSession
  show (match b.bySession s with | none => _ | some m => _) = _
  cases hm : b.bySession s with
  | none => rfl
  | some m =>
    have := removeLoop_called hf s ((arrange o m.keys).filterMap m.get) { b with bySession := b.bySession.del s }
      ⟨hb.top, fun s' m i p h1 h2 => by
        simp only [FMap.del] at h1
        split at h1
        · cases h1
        · exact hb.bys s' m i p h1 h2⟩
      (fun a ha => by
        obtain ⟨i, _, hi⟩ := List.mem_filterMap.1 ha
        exact hb.bys s m i a hm hi)
    simp only
    show (match removeLoop s (State.called f { b with bySession := b.bySession.del s }) _ with | .ok b' => _ | .err => _ | .panic => _) = _
    rw [this]
    cases removeLoop s { b with bySession := b.bySession.del s } ((arrange o m.keys).filterMap m.get) with
    | ok b' => rfl
    | err => rfl
    | panic => rfl

private theorem subscribe_called (hf : Distinct f) (b : State) (hb : Low b) (s q : Nat) (o : GoMap) (t : Str) :
    subscribe (b.called f) s q o (f t) = ((subscribe b s q o t).1.called f, (subscribe b s q o t).2.map fun x => (msg f x.1, x.2)) := by
  unfold subscribe
  have h : (b.called f).byTopic (f t) = b.byTopic t := tab_new hf ..
  show (match b.bySession s with | none => _ | some m => _) = _
  rw [h]
  cases b.bySession s with
  | none => rfl
  | some m =>
    cases hp : b.byTopic t with
    | some p =>
      have lp := hb.top _ _ hp
      simp only [heap_called lp]
      refine Prod.ext ?_ rfl
      have := hset_called (f := f) b.heap b.next p ⟨(b.heap p).id, (b.heap p).topic,
        if ((b.heap p).subscribers.contains s) = true then (b.heap p).subscribers else (b.heap p).subscribers ++ [s], (b.heap p).mtch⟩ lp
      exact congrArg (fun h => State.mk h _ _ _ _ _ _ _ _) this
    | none =>
      simp only
      refine Prod.ext ?_ rfl
      show State.mk (hset (fun a => if a < b.next then (b.heap a).called f else b.heap a) b.next (Sub.called f ⟨_, t, [s], _⟩)) _ (FMap.set (tab f b.byTopic) (f t) _) _ _
        (if _ then AMap.set (keyed f b.tree) (f t) _ else _) (if _ then AMap.set (keyed f b.wc) (f t) _ else _) _ _ = _
      rw [hset_new, tab_set hf, set_keyed hf, set_keyed hf]
      unfold State.called
      congr 1 <;> (split <;> rfl)

private theorem unsubscribe_called (hf : Distinct f) (b : State) (hb : Low b) (s q i : Nat) :
    unsubscribe (b.called f) s q i = ((unsubscribe b s q i).1.called f, (unsubscribe b s q i).2.map fun x => (msg f x.1, x.2)) := by
  unfold unsubscribe
  show (match b.bySession s with | none => _ | some m => _) = _
  cases hm : b.bySession s with
  | none => rfl
  | some m =>
    cases hp : m.get i with
    | none => simp only [hp]; rfl
    | some p =>
      have lp := hb.bys _ _ _ _ hm hp
      simp only [hp, heap_called lp]
      refine Prod.ext ?_ rfl
      show State.mk (hset (fun a => if a < b.next then (b.heap a).called f else b.heap a) p (Sub.called f { b.heap p with subscribers := (b.heap p).subscribers.filter (· ≠ s) })) _
        (if (List.filter (fun x => decide (x ≠ s)) (b.heap p).subscribers).isEmpty = true then FMap.del (tab f b.byTopic) (f (b.heap p).topic) else _) _ _
        (if (b.heap p).mtch = matchPrefix then AMap.del (keyed f b.tree) (f (b.heap p).topic) else _)
        (if (b.heap p).mtch = matchWildcard then AMap.del (keyed f b.wc) (f (b.heap p).topic) else _) _ _ = _
      rw [hset_called _ _ _ _ lp, tab_del hf, del_keyed hf, del_keyed hf]
      unfold State.called
      congr 1 <;> (split <;> rfl)

private theorem lookup_called (hf : Distinct f) (b : State) (hb : Fit w f b.tree b.wc) (o : List Str) (t : Str) :
    lookup w (o.map f) (b.called f) (f t) = lookup w o b t := by
  unfold lookup
  have h : (b.called f).byTopic (f t) = b.byTopic t := tab_new hf ..
  have h1 : longestPrefix (b.called f).tree (f t) = longestPrefix b.tree t := fit_longest hf hb t
  have h2 : firstWildcard w (o.map f) (b.called f).wc (f t) = firstWildcard w o b.wc t := fit_wildcard hf hb o t
  simp only [h, h1, h2, heap_subs]

private theorem eventDetails_called (b : State) (s : Nat) (t : Str) : eventDetails (b.called f) s (f t) = (eventDetails b s t).map (under f "topic") := by
  unfold eventDetails
  show (if b.details then (match b.sessions s with | none => _ | some p => _) else _) = _
  cases b.details with
  | false => rfl
  | true =>
    cases b.sessions s with
    | none => rfl
    | some p => rfl

private theorem publish_called (hf : Distinct f) (b : State) (hb : Fit w f b.tree b.wc) (s q : Nat) (o : GoMap) (t : Str) (a : GoSlice) (k : GoMap)
    (wo : List Str) (so : List Nat) : publish w (b.called f) s q o (f t) a k (wo.map f) so =
      ((publish w b s q o t a k wo so).1.called f, (publish w b s q o t a k wo so).2.map fun p =>
        ⟨p.event.map (msg f), p.recipients, p.ack.map fun x => (msg f x.1, x.2)⟩) := by
  unfold publish
  show (match b.bySession s with | none => _ | some m => _) = _
  cases b.bySession s with
  | none => rfl
  | some m =>
    simp only [lookup_called hf b hb, eventDetails_called]
    cases lookup w wo b t with
    | none => cases o.flag (str "acknowledge") <;> rfl
    | some p =>
      simp only [heap_subs, heap_id]
      split
      · cases o.flag (str "acknowledge") <;> rfl
      · cases eventDetails b s t with
        | ok d => cases o.flag (str "acknowledge") <;> rfl
        | err => rfl
        | panic => rfl

private theorem step_called (hf : Distinct f) (b : State) (hl : Low b) (hb : Fit w f b.tree b.wc) (op : Op) :
    step w (b.called f) (brokerOp f op) = ((step w b op).1.called f, (step w b op).2.map (brokerOut f)) := by
  cases op with
  | add d =>
    simp only [brokerOp, step, addSession_called]
    cases (addSession b d).2 <;> rfl
  | remove s o =>
    simp only [brokerOp, step, removeSession_called hf b hl]
    cases (removeSession b s o).2 <;> rfl
  | has t =>
    simp only [brokerOp, step, hasSubscription]
    rw [show (b.called f).byTopic (f t) = b.byTopic t from tab_new hf ..]
    rfl
  | disclose on => rfl
  | receive s m =>
    cases m with
    | subscribe q o t =>
      simp only [brokerOp, msg, step, receive, subscribe_called hf b hl]
      cases (subscribe b s q o t).2 <;> rfl
    | unsubscribe q i =>
      simp only [brokerOp, msg, step, receive, unsubscribe_called hf b hl]
      cases (unsubscribe b s q i).2 <;> rfl
    | _ => rfl
  | publish s q o t a k wo so =>
    simp only [brokerOp, step, publish_called hf b hb]
    cases (publish w b s q o t a k wo so).2 <;> rfl

/-- Without patterns the tables stay empty. -/
private theorem step_exact (b : State) (h : b.tree = [] ∧ b.wc = []) (op : Op) (ho : ∀ s m, op = .receive s m → exact m) :
    (step w b op).1.tree = [] ∧ (step w b op).1.wc = [] := by
  have hloop : ∀ s l (b b' : State), b.tree = [] ∧ b.wc = [] → removeLoop s b l = .ok b' → b'.tree = [] ∧ b'.wc = [] := by
    intro s l
    induction l with
    | nil => intro b b' h e; cases e; exact h
    | cons a l ih =>
      intro b b' h e
      simp only [removeLoop] at e
      cases hr : removeStep s b a with
      | ok b1 =>
        rw [hr] at e
        refine ih b1 b' ?_ e
        simp only [removeStep] at hr
        split at hr
        · cases hr
        · cases hr
          simp only [h.1, h.2, AMap.del, ite_self, and_self]
      | err => rw [hr] at e; cases e
      | panic => rw [hr] at e; cases e
  cases op with
  | add d => simp only [step, addSession]; split <;> exact h
  | remove s o =>
    simp only [step, removeSession]
    split
    · exact h
    · split
      · rename_i b' hb'
        exact hloop s _ { b with bySession := b.bySession.del s } b' h hb'
      · exact h
      · exact h
  | has t => exact h
  | disclose on => exact h
  | receive s m =>
    cases m with
    | subscribe q o t =>
      have hx : ¬pattern o := ho s _ rfl
      have h1 : normMatch (o.text optMatch) = matchExact := by
        simp only [normMatch]
        rw [if_neg (show ¬o.text optMatch = matchPrefix from fun e => hx (.inl e)),
          if_neg (show ¬o.text optMatch = matchWildcard from fun e => hx (.inr e))]
      have h2 : matchExact ≠ matchPrefix ∧ matchExact ≠ matchWildcard := by decide +kernel
      simp only [step, receive, subscribe]
      split
      · exact h
      · split
        · exact h
        · simp only [h1, if_neg h2.1, if_neg h2.2]; exact h
    | unsubscribe q i =>
      simp only [step, receive, unsubscribe]
      split
      · exact h
      · split
        · exact h
        · simp only [h.1, h.2, AMap.del, ite_self, and_self]
    | _ => exact h
  | publish s q o t a k wo so =>
    simp only [step, publish]
    split
    · exact h
    · split
      · exact h
      · split
        · exact h
        · split <;> exact h

private theorem called_init : init.called f = init := by
  show State.mk _ _ (tab f FMap.empty) _ _ _ _ _ _ = _
  rw [tab_empty]
  rfl

private theorem replies_called (hf : Distinct f) (ops : List Op) (h : Keeps f w ∨ ∀ op ∈ ops, ∀ s m, op = .receive s m → exact m) (b : State)
    (hl : Low b) (hb : Fit w f b.tree b.wc) : replies w (b.called f) (ops.map (brokerOp f)) = (replies w b ops).map (Res.map (brokerOut f)) := by
  induction ops generalizing b with
  | nil => rfl
  | cons op ops ih =>
    simp only [List.map_cons, replies, step_called hf b hl hb]
    refine congrArg _ (ih ?_ _ (low_step hl op) ?_)
    · exact h.imp id fun h op' ho => h op' (List.mem_cons_of_mem _ ho)
    · rcases h with h | h
      · exact .inl h
      · rcases hb with hb | hb
        · exact .inl hb
        · exact .inr (step_exact b hb op (h op (List.mem_cons_self ..)))

/-- **C161.** Topics are only names to a broker: if they were called something else, different names for different topics, it would return
the same results, with the new names in them.  The new names must keep which name begins with which and which name matches which pattern,
unless nobody subscribes to patterns. -/
theorem C161_broker (hf : Distinct f) (ops : List Op) (h : Keeps f w ∨ ∀ s m, Op.receive s m ∈ ops → exact m) :
    replies w init (ops.map (brokerOp f)) = (replies w init ops).map (Res.map (brokerOut f)) := by
  have := replies_called hf ops (h.imp id fun h op ho s m e => h s m (e ▸ ho)) init low_init (.inr ⟨rfl, rfl⟩)
  rwa [called_init] at this

end Wamp.Broker

namespace Wamp.Dealer
open Uris
variable {w : Str → Str → Bool} {f : Str → Str}

private def Reg.called (f : Str → Str) (x : Reg) : Reg := { x with procedure := f x.procedure }

/-- The dealer with the new names. -/
private noncomputable def State.called (f : Str → Str) (b : State) : State :=
  { b with
    heap := fun a => if a < b.next then (b.heap a).called f else b.heap a
    byProc := tab f b.byProc
    tree := keyed f b.tree
    wc := keyed f b.wc }

/-- Pointers point to objects. -/
private structure Low (b : State) : Prop where
  top : ∀ t p, b.byProc t = some p → p < b.next
  bys : ∀ s m i p, b.bySession s = some m → m.get i = some p → p < b.next
  tree : ∀ t p, b.tree.get t = some p → p < b.next
  wc : ∀ t p, b.wc.get t = some p → p < b.next

private theorem low_init : Low init := ⟨fun _ _ h => (by cases h), fun _ _ _ _ h => (by cases h), fun _ _ h => (by cases h), fun _ _ h => (by cases h)⟩

private theorem low_del {m : AMap Str Nat} {n : Nat} (h : ∀ t p, m.get t = some p → p < n) (u : Str) : ∀ t p, (m.del u).get t = some p → p < n := by
  intro t p hp
  rw [AMap.get_del] at hp
  split at hp
  · cases hp
  · exact h t p hp

private theorem low_ite {m : AMap Str Nat} {n : Nat} (h : ∀ t p, m.get t = some p → p < n) (u : Str) (c : Prop) [Decidable c] :
    ∀ t p, (if c then m.del u else m).get t = some p → p < n := by
  split
  · exact low_del h u
  · exact h

private theorem low_new {m : AMap Str Nat} {n : Nat} (h : ∀ t p, m.get t = some p → p < n) (u : Str) (c : Prop) [Decidable c] :
    ∀ t p, (if c then m.set u n else m).get t = some p → p < n + 1 := by
  intro t p hp
  split at hp
  · rw [AMap.get_set] at hp
    split at hp
    · cases hp; exact Nat.lt_succ_self _
    · exact Nat.lt_succ_of_lt (h t p hp)
  · exact Nat.lt_succ_of_lt (h t p hp)

private theorem low_top {m : FMap Str Nat} {n : Nat} (h : ∀ t p, m t = some p → p < n) (u : Str) (c : Prop) [Decidable c] :
    ∀ t p, (if c then m.del u else m) t = some p → p < n := by
  intro t p hp
  split at hp
  · simp only [FMap.del] at hp
    split at hp
    · cases hp
    · exact h t p hp
  · exact h t p hp

private theorem low_removeStep {s a : Nat} {b b' : State} (h : Low b) (e : removeStep s b a = .ok b') : Low b' ∧ b'.next = b.next := by
  simp only [removeStep] at e
  split at e
  · cases e; exact ⟨h, rfl⟩
  · rename_i p _
    cases hs : surgery s (b.heap p).callees.length 0 (b.heap p).callees (b.heap p).callees.length with
    | ok cs =>
      rw [hs] at e
      cases e
      exact ⟨⟨low_top h.top _ _, h.bys, h.tree, low_ite h.wc _ _⟩, rfl⟩
    | err => rw [hs] at e; cases e
    | panic => rw [hs] at e; cases e

private theorem low_removeLoop {s : Nat} (l : List Nat) : ∀ {b b' : State}, Low b → removeLoop s b l = .ok b' → Low b' := by
  induction l with
  | nil => intro b b' h e; cases e; exact h
  | cons a l ih =>
    intro b b' h e
    simp only [removeLoop] at e
    cases hr : removeStep s b a with
    | ok b1 => rw [hr] at e; exact ih (low_removeStep h hr).1 e
    | err => rw [hr] at e; cases e
    | panic => rw [hr] at e; cases e

private theorem low_step {b : State} (h : Low b) (op : Op) : Low (step w b op).1 := by
  have hset : ∀ (s : Nat) (m : AMap Nat Nat) (n : Nat), b.next ≤ n → (∀ i p, m.get i = some p → p < n) →
      ∀ s' m' i p, FMap.set b.bySession s m s' = some m' → m'.get i = some p → p < n := by
    intro s m n hn hm s' m' i p h1 h2
    simp only [FMap.set] at h1
    split at h1
    · cases h1; exact hm i p h2
    · exact Nat.lt_of_lt_of_le (h.bys s' m' i p h1 h2) hn
  cases op with
  | add d =>
    simp only [step, addSession]
    split
    · exact h
    · exact ⟨h.top, hset _ _ _ (Nat.le_refl _) (fun _ _ h => by cases h), h.tree, h.wc⟩
  | remove s o =>
    simp only [step, removeSession]
    split
    · exact h
    · split
      · rename_i b' hb'
        have := low_removeLoop _ h hb'
        refine ⟨this.top, fun s' m i p h1 h2 => ?_, this.tree, this.wc⟩
        simp only [FMap.del] at h1
        split at h1
        · cases h1
        · exact this.bys s' m i p h1 h2
      · exact h
      · exact h
  | has t => exact h
  | disclose on => exact ⟨h.top, h.bys, h.tree, h.wc⟩
  | receive s m order rnd =>
    cases m with
    | register q o t =>
      simp only [step, receive, register]
      split
      · exact h
      · rename_i m hm
        split
        · rename_i p hp
          split
          · exact h
          · refine ⟨h.top, hset _ _ _ (Nat.le_refl _) (fun i p' hg => ?_), h.tree, h.wc⟩
            rw [AMap.get_set] at hg
            split at hg
            · cases hg; exact h.top _ _ hp
            · exact h.bys _ _ _ _ hm hg
        · refine ⟨fun t' p hp => ?_, hset _ _ _ (Nat.le_succ _) (fun i p' hg => ?_), low_new h.tree _ _, low_new h.wc _ _⟩
          · simp only [FMap.set] at hp
            split at hp
            · cases hp; exact Nat.lt_succ_self _
            · exact Nat.lt_succ_of_lt (h.top _ _ hp)
          · rw [AMap.get_set] at hg
            split at hg
            · cases hg; exact Nat.lt_succ_self _
            · exact Nat.lt_succ_of_lt (h.bys _ _ _ _ hm hg)
    | unregister q i =>
      simp only [step, receive, unregister]
      split
      · exact h
      · rename_i m hm
        split
        · exact h
        · split
          · exact h
          · simp only
            split
            · refine ⟨?_, hset _ _ _ (Nat.le_refl _) (fun i p' hg => ?_), h.tree, low_ite h.wc _ _⟩
              · have := low_top h.top (b.heap (by assumption)).procedure True
                rwa [if_pos trivial] at this
              · rw [AMap.get_del] at hg
                split at hg
                · cases hg
                · exact h.bys _ _ _ _ hm hg
            · exact ⟨h.top, h.bys, h.tree, h.wc⟩
    | call q o t a k bin =>
      simp only [step, receive, call]
      split
      · exact h
      · split
        · exact h
        · split
          · exact h
          · exact h
          · split
            · exact ⟨h.top, h.bys, h.tree, h.wc⟩
            · split
              · exact ⟨h.top, h.bys, h.tree, h.wc⟩
              · split <;> exact ⟨h.top, h.bys, h.tree, h.wc⟩
    | yield q o a k bin =>
      simp only [step, receive, yield]
      split
      · exact h
      · have : ∀ c : Bool, ∀ r, Low (if c = true then b else { b with pending := r }) := by
          intro c r; cases c
          · exact ⟨h.top, h.bys, h.tree, h.wc⟩
          · exact h
        split
        · exact this _ _
        · split <;> exact this _ _
    | error t q d u a k =>
      simp only [step, receive, error]
      split
      · exact h
      · split
        · exact h
        · exact ⟨h.top, h.bys, h.tree, h.wc⟩
    | _ => exact h

private theorem heap_called {b : State} {p : Nat} (hp : p < b.next) : (b.called f).heap p = (b.heap p).called f := by
  simp only [State.called, if_pos hp]

private theorem heap_regs (b : State) (p : Nat) : ((b.called f).heap p).registrants = (b.heap p).registrants := by
  simp only [State.called]; split <;> rfl

private theorem hset_called (h : Nat → Reg) (n a : Nat) (x : Reg) (ha : a < n) :
    hset (fun a => if a < n then (h a).called f else h a) a (x.called f) = fun b => if b < n then (hset h a x b).called f else hset h a x b := by
  funext b
  simp only [hset]
  by_cases e : b = a
  · subst e; simp only [if_true, if_pos ha]
  · simp only [if_neg e]

private theorem hset_new (h : Nat → Reg) (n : Nat) (x : Reg) :
    hset (fun a => if a < n then (h a).called f else h a) n (x.called f) = fun b => if b < n + 1 then (hset h n x b).called f else hset h n x b := by
  funext b
  simp only [hset]
  by_cases e : b = n
  · subst e; simp only [if_true, if_pos (Nat.lt_succ_self _)]
  · simp only [if_neg e]
    by_cases h1 : b < n
    · rw [if_pos h1, if_pos (Nat.lt_succ_of_lt h1)]
    · rw [if_neg h1, if_neg (by omega)]

private theorem addSession_called (b : State) (d : SessionDetails) : addSession (b.called f) d = ((addSession b d).1.called f, (addSession b d).2) := by
  unfold addSession
  show (if (b.sessions d.id).isSome = true then _ else _) = _
  split <;> rfl

private theorem removeStep_called (hf : Distinct f) (s : Nat) (b : State) (hb : Low b) (a : Nat) (ha : a < b.next) :
    removeStep s (b.called f) a = (removeStep s b a).map (State.called f) := by
  unfold removeStep
  have h : (b.called f).byProc ((b.called f).heap a).procedure = b.byProc (b.heap a).procedure := by rw [heap_called ha]; exact tab_new hf ..
  simp only [h]
  cases hp : b.byProc (b.heap a).procedure with
  | none => rfl
  | some p =>
    have lp := hb.top _ _ hp
    simp only [heap_called lp]
    show Res.bind (surgery s (b.heap p).callees.length 0 (b.heap p).callees (b.heap p).callees.length) _ = _
    cases surgery s (b.heap p).callees.length 0 (b.heap p).callees (b.heap p).callees.length with
    | ok cs =>
      refine congrArg Res.ok ?_
      show State.mk (hset (fun a => if a < b.next then (b.heap a).called f else b.heap a) p (Reg.called f { b.heap p with registrants := (b.heap p).registrants.filter (· ≠ s), callees := cs })) _ _
        (if (List.filter (fun x => decide (x ≠ s)) (b.heap p).registrants).isEmpty = true then FMap.del (tab f b.byProc) (f (b.heap p).procedure) else _) _ _
        (if (b.heap p).mtch = matchWildcard then AMap.del (keyed f b.wc) (f (b.heap p).procedure) else _) _ _ _ _ = _
      rw [hset_called _ _ _ _ lp, tab_del hf, del_keyed hf]
      unfold State.called
      congr 1 <;> (split <;> rfl)
    | err => rfl
    | panic => rfl

private theorem removeLoop_called (hf : Distinct f) (s : Nat) (l : List Nat) (b : State) (hb : Low b) (hl : ∀ a ∈ l, a < b.next) :
    removeLoop s (b.called f) l = (removeLoop s b l).map (State.called f) := by
  induction l generalizing b with
  | nil => rfl
  | cons a l ih =>
    simp only [removeLoop, removeStep_called hf s b hb a (hl a (List.mem_cons_self ..))]
    cases hr : removeStep s b a with
    | ok b' =>
      obtain ⟨h1, h2⟩ := low_removeStep hb hr
      exact ih b' h1 (fun a ha => h2 ▸ hl a (List.mem_cons_of_mem _ ha))
    | err => rfl
    | panic => rfl

private theorem removeSession_called (hf : Distinct f) (b : State) (hb : Low b) (s : Nat) (o : List Nat) :
    removeSession (b.called f) s o = ((removeSession b s o).1.called f, (removeSession b s o).2) := by
  unfold removeSession
  show (match b.sessions s with | none => _ | some m => _) = _
  cases hs : b.sessions s with
  | none => rfl
  | some d =>
    simp only
    have := removeLoop_called hf s ((arrange o ((b.bySession s).getD []).keys).filterMap ((b.bySession s).getD []).get) b hb
      (fun a ha => by
        obtain ⟨i, _, hi⟩ := List.mem_filterMap.1 ha
        cases hm : b.bySession s with
        | none => rw [hm] at hi; cases hi
        | some m => rw [hm] at hi; exact hb.bys s m i a hm hi)
    show (match removeLoop s (State.called f b) ((arrange o ((b.bySession s).getD []).keys).filterMap ((b.bySession s).getD []).get) with
      | .ok b' => _ | .err => _ | .panic => _) = _
    rw [this]
    cases removeLoop s b ((arrange o ((b.bySession s).getD []).keys).filterMap ((b.bySession s).getD []).get) with
    | ok b' => rfl
    | err => rfl
    | panic => rfl

private theorem lookup_called (hf : Distinct f) (b : State) (hb : Fit w f b.tree b.wc) (o : List Str) (t : Str) :
    lookup w (o.map f) (b.called f) (f t) = lookup w o b t := by
  unfold lookup
  have h : (b.called f).byProc (f t) = b.byProc t := tab_new hf ..
  have h1 : longestPrefix (b.called f).tree (f t) = longestPrefix b.tree t := fit_longest hf hb t
  have h2 : firstWildcard w (o.map f) (b.called f).wc (f t) = firstWildcard w o b.wc t := fit_wildcard hf hb o t
  simp only [h, h1, h2, heap_regs]

private theorem lookup_low {b : State} (hb : Low b) (o : List Str) (t : Str) {p : Nat} (h : lookup w o b t = some p) : p < b.next := by
  have hl : ∀ {q}, longestPrefix b.tree t = some q → q < b.next := fun h => by
    obtain ⟨x, _, h2, _⟩ := longestPrefix_some h
    exact hb.tree x _ h2
  unfold lookup at h
  split at h
  · rename_i a ha
    split at h
    · split at h
      · rename_i q hq; cases h; exact hl hq
      · cases h; exact hb.top _ _ ha
    · cases h; exact hb.top _ _ ha
  · split at h
    · rename_i q hq; cases h; exact hl hq
    · simp only [firstWildcard] at h
      obtain ⟨x, _, hx⟩ := Option.bind_eq_some_iff.1 h
      exact hb.wc x _ hx

private theorem yield_called (b : State) (q : Nat) (o : GoMap) (a : GoSlice) (k : GoMap) (bin : Bin) :
    yield (b.called f) q o a k bin = ((yield b q o a k bin).1.called f, (yield b q o a k bin).2.map fun x => (msg f x.1, x.2)) := by
  unfold yield
  show (match b.pending.get q with | none => _ | some p => _) = _
  cases b.pending.get q with
  | none => rfl
  | some p =>
    simp only
    show (match b.sessions p.callerID with | none => _ | some c => _) = _
    cases b.sessions p.callerID with
    | none => cases (p.receiveProgress && o.flag optProgress) <;> rfl
    | some c => cases (p.receiveProgress && o.flag optProgress) <;> simp only <;> cases (bin.binary && c.static) <;> rfl

private theorem error_called (b : State) (t q : Nat) (d : GoMap) (u : Str) (a : GoSlice) (k : GoMap) :
    error (b.called f) t q d u a k = ((error b t q d u a k).1.called f, (error b t q d u a k).2.map fun x => (msg f x.1, x.2)) := by
  unfold error
  split
  · rfl
  · show (match b.pending.get q with | none => _ | some p => _) = _
    cases b.pending.get q <;> rfl

private theorem register_called (hf : Distinct f) (b : State) (hb : Low b) (s q : Nat) (o : GoMap) (t : Str) :
    register (b.called f) s q o (f t) = ((register b s q o t).1.called f, (register b s q o t).2.map fun x => (msg f x.1, x.2)) := by
  unfold register
  have h : (b.called f).byProc (f t) = b.byProc t := tab_new hf ..
  show (match b.bySession s with | none => _ | some m => _) = _
  rw [h]
  cases b.bySession s with
  | none => rfl
  | some m =>
    cases hp : b.byProc t with
    | some p =>
      have lp := hb.top _ _ hp
      simp only [heap_called lp]
      show (if (b.heap p).policy = [] ∨ (b.heap p).policy = invokeSingle ∨ (b.heap p).policy ≠ o.text optInvoke then _ else _) = _
      split
      · rfl
      · refine Prod.ext ?_ rfl
        have := hset_called (f := f) b.heap b.next p { b.heap p with
          registrants := if ((b.heap p).registrants.contains s) = true then (b.heap p).registrants else (b.heap p).registrants ++ [s]
          callees := (b.heap p).callees ++ [s] } lp
        exact congrArg (fun h => State.mk h _ _ _ _ _ _ _ _ _ _) this
    | none =>
      simp only
      refine Prod.ext ?_ rfl
      show State.mk (hset (fun a => if a < b.next then (b.heap a).called f else b.heap a) b.next (Reg.called f ⟨_, t, [s], _, _, [s], _⟩)) _ _ (FMap.set (tab f b.byProc) (f t) _) _
        (if _ then AMap.set (keyed f b.tree) (f t) _ else _) (if _ then AMap.set (keyed f b.wc) (f t) _ else _) _ _ _ _ = _
      rw [hset_new, tab_set hf, set_keyed hf, set_keyed hf]
      unfold State.called
      congr 1 <;> (split <;> rfl)

private theorem unregister_called (hf : Distinct f) (b : State) (hb : Low b) (s q i : Nat) :
    unregister (b.called f) s q i = ((unregister b s q i).1.called f, (unregister b s q i).2.map fun x => (msg f x.1, x.2)) := by
  unfold unregister
  show (match b.bySession s with | none => _ | some m => _) = _
  cases hm : b.bySession s with
  | none => rfl
  | some m =>
    simp only
    split
    · rfl
    · cases hp : m.get i with
      | none => rfl
      | some p =>
        have lp := hb.bys _ _ _ _ hm hp
        have hh := hset_called (f := f) b.heap b.next p { b.heap p with registrants := (b.heap p).registrants.filter (· ≠ s) } lp
        simp only [heap_called lp]
        refine Prod.ext ?_ rfl
        show (if (List.filter (fun x => decide (x ≠ s)) (b.heap p).registrants).isEmpty = true then
            State.mk (hset (fun a => if a < b.next then (b.heap a).called f else b.heap a) p (Reg.called f { b.heap p with registrants := (b.heap p).registrants.filter (· ≠ s) })) _ _
              (FMap.del (tab f b.byProc) (f (b.heap p).procedure)) _ _ (if (b.heap p).mtch = matchWildcard then AMap.del (keyed f b.wc) (f (b.heap p).procedure) else _) _ _ _ _
          else State.mk (hset (fun a => if a < b.next then (b.heap a).called f else b.heap a) p (Reg.called f { b.heap p with registrants := (b.heap p).registrants.filter (· ≠ s) })) _ _ _ _ _ _ _ _ _ _) = _
        rw [hh, tab_del hf, del_keyed hf]
        split
        · unfold State.called
          congr 1; split <;> rfl
        · rfl

private theorem details_called (c : Option SessionDetails) (s : Nat) (t : Str) (p q : Bool) :
    invocationDetails c s (f t) p q = under f "procedure" (invocationDetails c s t p q) := by
  cases c <;> cases p <;> cases q <;> rfl

private theorem call_called (hf : Distinct f) (b : State) (hl : Low b) (hb : Fit w f b.tree b.wc) (s q : Nat) (o : GoMap) (t : Str) (a : GoSlice) (k : GoMap)
    (bin : Bin) (wo : List Str) (rnd : Nat) : call w (b.called f) s q o (f t) a k bin (wo.map f) rnd =
      ((call w b s q o t a k bin wo rnd).1.called f, (call w b s q o t a k bin wo rnd).2.map fun x => (msg f x.1, x.2)) := by
  unfold call
  rw [lookup_called hf b hb]
  cases hp : lookup w wo b t with
  | none => rfl
  | some p =>
    have lp := lookup_low hl wo t hp
    simp only [heap_called lp]
    show (if (b.heap p).registrants.isEmpty = true then _ else match pick (b.heap p) rnd with | .err => _ | .panic => _ | .ok (callee, nc) => _) = _
    split
    · rfl
    · cases pick (b.heap p) rnd with
      | err => rfl
      | panic => rfl
      | ok x =>
        obtain ⟨callee, nc⟩ := x
        have h1 : hset (b.called f).heap p { (b.heap p).called f with nextCallee := nc } =
            fun a => if a < b.next then (hset b.heap p { b.heap p with nextCallee := nc } a).called f else hset b.heap p { b.heap p with nextCallee := nc } a :=
          hset_called b.heap b.next p { b.heap p with nextCallee := nc } lp
        have e1 : (b.called f).invByCall = b.invByCall := rfl
        have e2 : (b.called f).sessions = b.sessions := rfl
        have e3 : (b.called f).details = b.details := rfl
        have e4 : (b.called f).idGen = b.idGen := rfl
        have e5 : (b.called f).pending = b.pending := rfl
        simp only [h1, e1, e2, e3, e4, e5, details_called]
        split
        · rfl
        · cases b.sessions callee with
          | none => rfl
          | some c =>
            simp only
            split
            · have hu := under_dset (f := f) "procedure" (str "x_payload_serializer") (.u64 bin.serializer) (by decide +kernel)
                (invocationDetails (if b.details = true then b.sessions s else none) s t (o.flag optProgress) (o.flag optReceiveProgress))
              refine Prod.ext rfl ?_
              show Res.ok (Msg.invocation _ _ (some (dset (under f "procedure" _) _ _)) _ _ _, _) = _
              rw [← hu]
              rfl
            · rfl

private theorem step_called (hf : Distinct f) (b : State) (hl : Low b) (hb : Fit w f b.tree b.wc) (op : Op) :
    step w (b.called f) (dealerOp f op) = ((step w b op).1.called f, (step w b op).2.map (dealerOut f)) := by
  cases op with
  | add d =>
    simp only [dealerOp, step, addSession_called]
    cases (addSession b d).2 <;> rfl
  | remove s o =>
    simp only [dealerOp, step, removeSession_called hf b hl]
    cases (removeSession b s o).2 <;> rfl
  | has t =>
    simp only [dealerOp, step, hasProcedure]
    rw [show (b.called f).byProc (f t) = b.byProc t from tab_new hf ..]
    cases b.byProc t with
    | none => rfl
    | some a => simp only [heap_regs]; rfl
  | disclose on => rfl
  | receive s m order rnd =>
    cases m with
    | call q o t a k bin =>
      simp only [dealerOp, msg, step, receive, call_called hf b hl hb]
      cases (call w b s q o t a k bin order rnd).2 <;> rfl
    | yield q o a k bin =>
      simp only [dealerOp, msg, step, receive, yield_called]
      cases (yield b q o a k bin).2 <;> rfl
    | register q o t =>
      simp only [dealerOp, msg, step, receive, register_called hf b hl]
      cases (register b s q o t).2 <;> rfl
    | unregister q i =>
      simp only [dealerOp, msg, step, receive, unregister_called hf b hl]
      cases (unregister b s q i).2 <;> rfl
    | error t q d u a k =>
      simp only [dealerOp, msg, step, receive, error_called]
      cases (error b t q d u a k).2 <;> rfl
    | _ => rfl

/-- Without patterns the tables stay empty. -/
private theorem step_exact (b : State) (h : b.tree = [] ∧ b.wc = []) (op : Op) (ho : ∀ s m o r, op = .receive s m o r → exact m) :
    (step w b op).1.tree = [] ∧ (step w b op).1.wc = [] := by
  have hloop : ∀ s l (b b' : State), b.tree = [] ∧ b.wc = [] → removeLoop s b l = .ok b' → b'.tree = [] ∧ b'.wc = [] := by
    intro s l
    induction l with
    | nil => intro b b' h e; cases e; exact h
    | cons a l ih =>
      intro b b' h e
      simp only [removeLoop] at e
      cases hr : removeStep s b a with
      | ok b1 =>
        rw [hr] at e
        refine ih b1 b' ?_ e
        simp only [removeStep] at hr
        split at hr
        · cases hr; exact h
        · rename_i p _
          cases hs : surgery s (b.heap p).callees.length 0 (b.heap p).callees (b.heap p).callees.length with
          | ok cs =>
            rw [hs] at hr
            cases hr
            simp only [h.1, h.2, AMap.del, ite_self, and_self]
          | err => rw [hs] at hr; cases hr
          | panic => rw [hs] at hr; cases hr
      | err => rw [hr] at e; cases e
      | panic => rw [hr] at e; cases e
  cases op with
  | add d => simp only [step, addSession]; split <;> exact h
  | remove s o =>
    simp only [step, removeSession]
    split
    · exact h
    · split
      · rename_i b' hb'
        exact hloop s _ b b' h hb'
      · exact h
      · exact h
  | has t => exact h
  | disclose on => exact h
  | receive s m order rnd =>
    cases m with
    | register q o t =>
      have hx : ¬pattern o := ho s _ _ _ rfl
      have h1 : normMatch (o.text optMatch) = matchExact := by
        simp only [normMatch]
        rw [if_neg (show ¬o.text optMatch = matchPrefix from fun e => hx (.inl e)),
          if_neg (show ¬o.text optMatch = matchWildcard from fun e => hx (.inr e))]
      have h2 : matchExact ≠ matchPrefix ∧ matchExact ≠ matchWildcard := by decide +kernel
      simp only [step, receive, register]
      split
      · exact h
      · split
        · split <;> exact h
        · simp only [h1, if_neg h2.1, if_neg h2.2]; exact h
    | unregister q i =>
      simp only [step, receive, unregister]
      split
      · exact h
      · split
        · exact h
        · split
          · exact h
          · simp only
            split
            · simp only [h.1, h.2, AMap.del, ite_self, and_self]
            · exact h
    | call q o t a k bin =>
      simp only [step, receive, call]
      split
      · exact h
      · split
        · exact h
        · split
          · exact h
          · exact h
          · split
            · exact h
            · split
              · exact h
              · split <;> exact h
    | yield q o a k bin =>
      simp only [step, receive, yield]
      split
      · exact h
      · split
        · split <;> exact h
        · split <;> (split <;> exact h)
    | error t q d u a k =>
      simp only [step, receive, error]
      split
      · exact h
      · split <;> exact h
    | _ => exact h

private theorem called_init : init.called f = init := by
  show State.mk _ _ _ (tab f FMap.empty) _ _ _ _ _ _ _ = _
  rw [tab_empty]
  rfl

private theorem replies_called (hf : Distinct f) (ops : List Op) (h : Keeps f w ∨ ∀ op ∈ ops, ∀ s m o r, op = .receive s m o r → exact m) (b : State)
    (hl : Low b) (hb : Fit w f b.tree b.wc) : replies w (b.called f) (ops.map (dealerOp f)) = (replies w b ops).map (Res.map (dealerOut f)) := by
  induction ops generalizing b with
  | nil => rfl
  | cons op ops ih =>
    have ih' := ih (h.imp id fun h op' ho => h op' (List.mem_cons_of_mem _ ho)) (step w b op).1 (low_step hl op) (by
      rcases h with h | h
      · exact .inl h
      · rcases hb with hb | hb
        · exact .inl hb
        · exact .inr (step_exact b hb op (h op (List.mem_cons_self ..))))
    simp only [List.map_cons, replies, step_called hf b hl hb]
    cases (step w b op).2 with
    | ok o => exact congrArg _ ih'
    | err => exact congrArg _ ih'
    | panic => rfl

/-- **C161.** The same for procedures and a dealer. -/
theorem C161_dealer (hf : Distinct f) (ops : List Op) (h : Keeps f w ∨ ∀ s m o r, Op.receive s m o r ∈ ops → exact m) :
    replies w init (ops.map (dealerOp f)) = (replies w init ops).map (Res.map (dealerOut f)) := by
  have := replies_called hf ops (h.imp id fun h op ho s m o r e => h s m o r (e ▸ ho)) init low_init (.inr ⟨rfl, rfl⟩)
  rwa [called_init] at this

end Wamp.Dealer

namespace Wamp.System
open Uris
variable {w : Str → Str → Bool} {f : Str → Str}

private def bEvent (f : Str → Str) (e : Broker.Event) : Broker.Event := ⟨Uris.brokerOp f e.op, e.res.map (Uris.brokerOut f)⟩
private def dEvent (f : Str → Str) (e : Dealer.Event) : Dealer.Event := ⟨Uris.dealerOp f e.op, e.res.map (Uris.dealerOut f)⟩

/-- The system with the new names. -/
private noncomputable def Sys.called (f : Str → Str) (x : Sys) : Sys where
  broker := x.broker.called f
  dealer := x.dealer.called f
  client := x.client
  up := fun s => (x.up s).map (msg f)
  down := fun s => (x.down s).map (msg f)
  sent := fun s => (x.sent s).map (msg f)
  joined := x.joined
  bh := x.bh.map (bEvent f)
  dh := x.dh.map (dEvent f)

private noncomputable def Log.called (f : Str → Str) (l : Log) : Log := ⟨l.sys.called f, fun s => (l.got s).map (msg f)⟩

/-- Pointers in broker and dealer point to objects. -/
private def Low (x : Sys) : Prop := Broker.Low x.broker ∧ Dealer.Low x.dealer

private theorem map_upd (m : Nat → List Msg) (s : Nat) (l : List Msg) :
    upd (fun s => (m s).map (msg f)) s (l.map (msg f)) = fun x => (upd m s l x).map (msg f) := by
  funext x
  simp only [upd]
  split <;> rfl

private theorem send_called (m : Msg) (data : Str) (s : Session.State) :
    (Session.send (.ok data) (msg f m)).run s = (Session.send (.ok data) m).run s := by
  cases m <;> rfl

private theorem recv_called (m : Msg) (s : Session.State) : ((Session.recv (msg f m)).run s).1 = ((Session.recv m).run s).1 := by
  cases m with
  | event i n d a k => simp only [msg, Session.recv, Session.Prog.run]; cases s .subscriptions i <;> rfl
  | invocation i g d a k b => simp only [msg, Session.recv, Session.Prog.run]; cases s .registrations g <;> rfl
  | _ => rfl

private theorem brokerOut_called (x : Res Broker.Out) :
    brokerOut (x.map (Uris.brokerOut f)) = (brokerOut x).map fun p => (p.1, msg f p.2) := by
  cases x with
  | err => rfl
  | panic => rfl
  | ok o =>
    cases o with
    | unit => rfl
    | bool b => rfl
    | msg m s => rfl
    | pub p =>
      obtain ⟨e, rs, a⟩ := p
      cases e <;> cases a <;> simp [brokerOut, Uris.brokerOut]

private theorem dealerOut_called (x : Res Dealer.Out) :
    dealerOut (x.map (Uris.dealerOut f)) = (dealerOut x).map fun p => (p.1, msg f p.2) := by
  cases x with
  | err => rfl
  | panic => rfl
  | ok o => cases o <;> rfl

section
variable (hf : Distinct f) (hk : Keeps f w)
include hf hk

private theorem onBroker_called (x : Sys) (hx : Low x) (op : Broker.Op) : (x.called f).onBroker w (Uris.brokerOp f op) = (x.onBroker w op).called f := by
  have h : Broker.step w (x.called f).broker (Uris.brokerOp f op) = _ := Broker.step_called hf x.broker hx.1 (.inl hk) op
  simp only [Sys.onBroker, h]
  rfl

private theorem onDealer_called (x : Sys) (hx : Low x) (op : Dealer.Op) :
    (x.called f).onDealer w (Uris.dealerOp f op) = (x.onDealer w op).map (Sys.called f) := by
  have h : Dealer.step w (x.called f).dealer (Uris.dealerOp f op) = _ := Dealer.step_called hf x.dealer hx.2 (.inl hk) op
  simp only [Sys.onDealer, h]
  cases e : (Dealer.step w x.dealer op).2 <;> rfl

omit hf hk in
private theorem post_called (x : Sys) (out : List (Nat × Msg)) :
    (x.called f).post (out.map fun p => (p.1, msg f p.2)) = (x.post out).called f := by
  have h : ∀ s, messagesFor s (out.map fun p => (p.1, msg f p.2)) = (messagesFor s out).map (msg f) := by
    intro s
    unfold messagesFor
    rw [List.filter_map, List.map_map, List.map_map]
    rfl
  have : (fun s => (x.called f).down s ++ messagesFor s (out.map fun p => (p.1, msg f p.2))) = fun s => (x.down s ++ messagesFor s out).map (msg f) := by
    funext s
    rw [h, List.map_append]
    rfl
  simp only [Sys.post, this]
  rfl

private theorem handle_called (x : Sys) (hx : Low x) (s : Nat) (m : Msg) (wo : List Str) (so : List Nat) (rnd : Nat) :
    (x.called f).handle w s (msg f m) (wo.map f) so rnd = (x.handle w s m wo so rnd).map (Sys.called f) := by
  have hb : ∀ op : Broker.Op, ((x.called f).onBroker w (Uris.brokerOp f op)).post (brokerOut (Broker.step w (x.called f).broker (Uris.brokerOp f op)).2) =
      ((x.onBroker w op).post (brokerOut (Broker.step w x.broker op).2)).called f := by
    intro op
    have h : Broker.step w (x.called f).broker (Uris.brokerOp f op) = _ := Broker.step_called hf x.broker hx.1 (.inl hk) op
    rw [h, onBroker_called hf hk x hx, brokerOut_called, post_called]
  have hd : ∀ op : Dealer.Op, (((x.called f).onDealer w (Uris.dealerOp f op)).map fun y =>
        y.post (dealerOut (Dealer.step w (x.called f).dealer (Uris.dealerOp f op)).2)) =
      ((x.onDealer w op).map fun y => y.post (dealerOut (Dealer.step w x.dealer op).2)).map (Sys.called f) := by
    intro op
    have h : Dealer.step w (x.called f).dealer (Uris.dealerOp f op) = _ := Dealer.step_called hf x.dealer hx.2 (.inl hk) op
    rw [h, onDealer_called hf hk x hx, dealerOut_called, Option.map_map, Option.map_map]
    cases x.onDealer w op with
    | none => rfl
    | some y => exact congrArg some (post_called y _)
  cases m with
  | publish q o t a k => exact congrArg some (hb (.publish s q o t a k wo so))
  | subscribe q o t => exact congrArg some (hb (.receive s (.subscribe q o t)))
  | unsubscribe q i => exact congrArg some (hb (.receive s (.unsubscribe q i)))
  | call q o p a k bin => exact hd (.receive s (.call q o p a k bin) wo rnd)
  | yield q o a k bin => exact hd (.receive s (.yield q o a k bin) wo rnd)
  | register q o p => exact hd (.receive s (.register q o p) wo rnd)
  | unregister q i => exact hd (.receive s (.unregister q i) wo rnd)
  | error t q d u a k => exact hd (.receive s (.error t q d u a k) wo rnd)
  | _ => rfl

omit hf hk in
private theorem low_onBroker {x : Sys} (hx : Low x) (op : Broker.Op) : Low (x.onBroker w op) := ⟨Broker.low_step hx.1 op, hx.2⟩

omit hf hk in
private theorem low_onDealer {x y : Sys} (hx : Low x) (op : Dealer.Op) (h : x.onDealer w op = some y) : Low y := by
  simp only [Sys.onDealer] at h
  split at h
  · cases h
  · cases h; exact ⟨hx.1, Dealer.low_step hx.2 op⟩

omit hf hk in
private theorem low_handle {x y : Sys} (hx : Low x) (s : Nat) (m : Msg) (wo : List Str) (so : List Nat) (rnd : Nat)
    (h : x.handle w s m wo so rnd = some y) : Low y := by
  have hd : ∀ op out, (x.onDealer w op).map (fun z => z.post out) = some y → Low y := by
    intro op out h
    obtain ⟨z, hz, rfl⟩ := Option.map_eq_some_iff.1 h
    exact ⟨(low_onDealer hx op hz).1, (low_onDealer hx op hz).2⟩
  cases m with
  | publish q o t a k => cases h; exact low_onBroker hx _
  | subscribe q o t => cases h; exact low_onBroker hx _
  | unsubscribe q i => cases h; exact low_onBroker hx _
  | call q o p a k bin => exact hd _ _ h
  | yield q o a k bin => exact hd _ _ h
  | register q o p => exact hd _ _ h
  | unregister q i => exact hd _ _ h
  | error t q d u a k => exact hd _ _ h
  | _ => cases h; exact hx

omit hf hk in
private theorem low_act {x y : Sys} (hx : Low x) (a : Action) (h : x.act w a = some y) : Low y := by
  cases a with
  | join d =>
    simp only [Sys.act] at h
    split at h
    · cases h
    · exact low_onDealer (low_onBroker (x := { x with joined := d.id :: x.joined }) hx _) _ h
  | leave s o o' => exact low_onDealer (low_onBroker hx _) _ h
  | disclose p c => exact low_onDealer (low_onBroker hx (.disclose p)) (.disclose c) h
  | send s data m =>
    simp only [Sys.act] at h
    split at h
    · split at h
      · cases h; exact hx
      · cases h
    · cases h
  | route s wo so rnd =>
    simp only [Sys.act] at h
    split at h
    · cases h
    · exact low_handle (x := { x with up := upd x.up s _ }) hx s _ wo so rnd h
  | deliver s =>
    simp only [Sys.act] at h
    split at h
    · cases h
    · cases h; exact hx

omit hf hk in
private def action (f : Str → Str) : Action → Action
  | .send s data m => .send s data (msg f m)
  | .route s wo so rnd => .route s (wo.map f) so rnd
  | a => a

private theorem act_called (x : Sys) (hx : Low x) (a : Action) : (x.called f).act w (action f a) = (x.act w a).map (Sys.called f) := by
  cases a with
  | join d =>
    simp only [action, Sys.act]
    show (if d.id ∈ x.joined then _ else _) = _
    split
    · rfl
    · have hx' : Low { x with joined := d.id :: x.joined } := hx
      exact (congrArg (fun y => Sys.onDealer w y (.add d)) (onBroker_called hf hk ({ x with joined := d.id :: x.joined } : Sys) hx' (.add d))).trans
        (onDealer_called hf hk _ (low_onBroker hx' _) (.add d))
  | leave s o o' =>
    exact (congrArg (fun y => Sys.onDealer w y (.remove s o')) (onBroker_called hf hk x hx (.remove s o))).trans
      (onDealer_called hf hk _ (low_onBroker hx _) (.remove s o'))
  | disclose p c =>
    exact (congrArg (fun y => Sys.onDealer w y (.disclose c)) (onBroker_called hf hk x hx (.disclose p))).trans
      (onDealer_called hf hk _ (low_onBroker hx _) (.disclose c))
  | send s data m =>
    simp only [action, Sys.act]
    rw [show (x.called f).client s = x.client s from rfl, send_called]
    rcases h : (Session.send (.ok data) m).run (x.client s) with ⟨c, t⟩
    cases t with
    | err => rfl
    | panic => rfl
    | ok b =>
      simp only
      show (if s ∈ x.joined then _ else _) = _
      split
      · have e1 : (x.called f).up s ++ [msg f m] = (x.up s ++ [m]).map (msg f) := by
          rw [List.map_append]; rfl
        have e2 : msg f m :: (x.called f).sent s = (m :: x.sent s).map (msg f) := rfl
        rw [e1, e2]
        simp only [Option.map_some, Sys.called, map_upd]
      · rfl
  | route s wo so rnd =>
    simp only [action, Sys.act]
    rw [show (x.called f).up s = (x.up s).map (msg f) from rfl]
    cases h : x.up s with
    | nil => rfl
    | cons m rest =>
      refine Eq.trans ?_ (handle_called hf hk ({ x with up := upd x.up s rest } : Sys) hx s m wo so rnd)
      simp only [List.map_cons, Sys.called, map_upd]
  | deliver s =>
    simp only [action, Sys.act]
    rw [show (x.called f).down s = (x.down s).map (msg f) from rfl]
    cases h : x.down s with
    | nil => rfl
    | cons m rest =>
      simp only [List.map_cons, Option.map_some]
      rw [show (x.called f).client s = x.client s from rfl, recv_called]
      simp only [Sys.called, map_upd]

private theorem move_called (F : Nat → Bool) (l : Log) (hl : Low l.sys) (v : Move) :
    (l.called f).move w F (Uris.move f v) = (l.move w F v).map (Log.called f) ∧ ∀ l', l.move w F v = some l' → Low l'.sys := by
  have hc : ∀ a : Action, (l.called f).act w (action f a) = (l.act w a).map (Log.called f) := by
    intro a
    have h := act_called hf hk l.sys hl a
    simp only [Log.act]
    show (Sys.act w (l.sys.called f) _).map _ = _
    rw [h, Option.map_map, Option.map_map]
    cases l.sys.act w a with
    | none => rfl
    | some y =>
      refine congrArg some ?_
      cases a with
      | deliver s =>
        show Log.mk _ (upd (fun s => (l.got s).map (msg f)) s ((l.got s).map (msg f) ++ ((l.sys.down s).map (msg f)).take 1)) = _
        rw [← List.map_take, ← List.map_append, map_upd]
        rfl
      | _ => rfl
  have hlow : ∀ a l', l.act w a = some l' → Low l'.sys := by
    intro a l' h
    simp only [Log.act] at h
    obtain ⟨y, hy, rfl⟩ := Option.map_eq_some_iff.1 h
    exact low_act hl a hy
  cases v with
  | inject s m =>
    simp only [Uris.move, Log.move]
    rw [show (l.called f).sys.joined = l.sys.joined from rfl]
    split
    · refine ⟨?_, fun l' h => ?_⟩
      · have e1 : (l.called f).sys.up s ++ [msg f m] = (l.sys.up s ++ [m]).map (msg f) := by
          rw [List.map_append]; rfl
        have e2 : msg f m :: (l.called f).sys.sent s = (m :: l.sys.sent s).map (msg f) := rfl
        rw [e1, e2]
        simp only [Option.map_some, Log.called, Sys.called, map_upd]
      · cases h; exact hl
    · exact ⟨rfl, fun _ h => (by cases h)⟩
  | act a =>
    cases a with
    | send s data m =>
      simp only [Uris.move, Log.move]
      split
      · exact ⟨rfl, fun _ h => (by cases h)⟩
      · exact ⟨hc (.send s data m), hlow _⟩
    | join d => exact ⟨hc (.join d), hlow _⟩
    | leave s o o' => exact ⟨hc (.leave s o o'), hlow _⟩
    | disclose p c => exact ⟨hc (.disclose p c), hlow (.disclose p c)⟩
    | route s wo so rnd => exact ⟨hc (.route s wo so rnd), hlow _⟩
    | deliver s => exact ⟨hc (.deliver s), hlow _⟩

private theorem moves_called (F : Nat → Bool) (vs : List Move) (l : Log) (hl : Low l.sys) :
    (l.called f).moves w F (vs.map (Uris.move f)) = (l.moves w F vs).map (Log.called f) := by
  induction vs generalizing l with
  | nil => rfl
  | cons v vs ih =>
    obtain ⟨h1, h2⟩ := move_called hf hk F l hl v
    simp only [List.map_cons, Log.moves, h1]
    cases h : l.move w F v with
    | none => rfl
    | some l' => exact ih l' (h2 l' h)

/-- **C161.** A router and its clients, some of which need not use this library: if all topics and procedures had other names, which begin
with each other and match patterns as the old ones do, the same would happen with the new names.  What is possible stays possible, what is
not does not become so; every client has sent and got the same messages, with the new names, and its `Session` is in the same state. -/
theorem C161_system (F : Nat → Bool) (vs : List Move) :
    match Log.new.moves w F vs, Log.new.moves w F (vs.map (Uris.move f)) with
    | none, none => True
    | some l, some l' => ∀ s, l'.inbox s = (l.inbox s).map (msg f) ∧ l'.outbox s = (l.outbox s).map (msg f) ∧ l'.sys.client s = l.sys.client s
    | _, _ => False := by
  have h := moves_called hf hk F vs Log.new ⟨Broker.low_init, Dealer.low_init⟩
  have h0 : Log.called f Log.new = Log.new := by
    show Log.mk ⟨Broker.init.called f, Dealer.init.called f, _, _, _, _, _, _, _⟩ _ = _
    rw [Broker.called_init, Dealer.called_init]
    rfl
  rw [h0] at h
  rw [h]
  cases Log.new.moves w F vs with
  | none => trivial
  | some l =>
    intro s
    refine ⟨?_, ?_, rfl⟩
    · exact (List.map_append ..).symm
    · exact (List.map_reverse ..).symm

end

end Wamp.System

namespace Wamp.Uris
open PathMatch Wildcard

private theorem chunk_lit {c : UInt8} (h2 : c ≠ 63) (h3 : c ≠ 91) (h4 : c ≠ 92) (k s : Str) :
    matchChunk (c :: k) (c :: s) false = matchChunk k s false := by
  rw [matchChunk.eq_def]
  simp [h2, h3, h4]

private theorem match_cons {c : UInt8} (hc : ordinary c) (hs : c ≠ star) (p s : Str) : pathMatch (c :: p) (c :: s) = pathMatch p s := by
  obtain ⟨h1, h2, h3⟩ := hc
  have hsk : skipStars (c :: p) = (false, c :: p) := by
    simp only [skipStars, if_neg (show ¬c = 42 from hs)]
  rw [pathMatch.eq_def]
  simp only [dif_neg (List.cons_ne_nil c p), scanChunk, hsk, scan_lit hs h3 h2, Bool.false_eq_true, false_and, if_false, chunk_lit h1 h2 h3]
  cases p with
  | nil =>
    rw [pathMatch.eq_def [] s]
    simp only [scan, matchChunk, Bool.false_eq_true, if_false]
    cases s <;> simp [pathMatch, checkRest]
  | cons d p =>
    by_cases hd : d = 42
    · subst hd
      have : scan false (42 :: p) = ([], 42 :: p) := by rw [scan.eq_def]; simp
      rw [this]
      simp [matchChunk]
    · have hsk' : skipStars (d :: p) = (false, d :: p) := by simp only [skipStars, if_neg hd]
      rw [pathMatch.eq_def (d :: p) s]
      simp only [dif_neg (List.cons_ne_nil d p), scanChunk, hsk', Bool.false_eq_true, false_and, if_false]

/-- **C161.** For example, all names can be moved below a common prefix: with the matcher that broker and dealer use, for every prefix without
`*`, `?`, `[` and `\\`. -/
theorem C161_prefix (x : Str) (hx : Plain x) : Distinct (x ++ ·) ∧ Keeps (x ++ ·) wildcardMatch := by
  refine ⟨fun a b h => List.append_cancel_left h, fun p n => (List.prefix_append_right_inj x).symm, fun n p => ?_⟩
  have : pathMatch (x ++ p) (x ++ n) = pathMatch p n := by
    obtain ⟨h1, h2⟩ := hx
    induction x with
    | nil => rfl
    | cons c x ih =>
      rw [List.cons_append, List.cons_append, match_cons (h1 c (List.mem_cons_self ..)) (fun e => h2 (e ▸ List.mem_cons_self ..))]
      exact ih (fun d hd => h1 d (List.mem_cons_of_mem _ hd)) (fun h => h2 (List.mem_cons_of_mem _ h))
  simp only [wildcardMatch, this]

/-- Session 2 subscribes to everything that begins with `a.`, session 1 publishes to `a.b`, and what session 2 gets says so; with names
below `com.` it gets `com.a.b`. -/
example : let d (n : Nat) : SessionDetails := ⟨n, [], [], [], [], false, none, none⟩
    let ops : List Broker.Op := [.disclose true, .add (d 1), .add (d 2),
      .receive 2 (.subscribe 1 (some [(str "match", .str (str "prefix"))]) (str "a.")), .publish 1 1 none (str "a.b") none none [] []]
    let topics (l : List (Res Broker.Out)) : List (List Nat × List Str) := l.filterMap fun
      | .ok (.pub ⟨some (.event _ _ (some d) _ _), rs, _⟩) => some (rs, d.filterMap fun | (k, .str t) => if k = str "topic" then some t else none | _ => none)
      | _ => none
    Plain (str "com.") ∧ topics (Broker.replies wildcardMatch Broker.init ops) = [([2], [str "a.b"])] ∧
    topics (Broker.replies wildcardMatch Broker.init (ops.map (brokerOp (str "com." ++ ·)))) = [([2], [str "com.a.b"])] :=
  ⟨⟨by decide +kernel, by decide +kernel⟩, by decide +kernel, by decide +kernel⟩

/-- Where nobody subscribes to a pattern, names can be written backwards. -/
example : Distinct List.reverse ∧ exact (.subscribe 1 none (str "a.")) ∧ exact (.register 1 (some [(str "invoke", .str (str "first"))]) (str "p")) :=
  ⟨fun _ _ h => List.reverse_inj.1 h, by simp only [exact, pattern]; decide +kernel, by simp only [exact, pattern]; decide +kernel⟩

/-- Where somebody does, they cannot: now the dealer finds a procedure, now it does not. -/
example : let d (n : Nat) : SessionDetails := ⟨n, [], [], [], [], false, none, none⟩
    let ops : List Dealer.Op := [.add (d 1), .add (d 2), .receive 2 (.register 1 (some [(str "match", .str (str "prefix"))]) (str "a.")) [] 0,
      .receive 1 (.call 1 none (str "a.b") none none Bin.none) [] 0]
    let to (l : List (Res Dealer.Out)) : List Nat := l.filterMap fun | .ok (.msg (.invocation ..) s) => some s | _ => none
    to (Dealer.replies wildcardMatch Dealer.init ops) = [2] ∧ to (Dealer.replies wildcardMatch Dealer.init (ops.map (dealerOp List.reverse))) = [] ∧
    ¬Keeps List.reverse wildcardMatch :=
  ⟨by decide +kernel, by decide +kernel, fun h => absurd ((h.1 (str "a.") (str "a.b")).1 (by decide +kernel)) (by decide +kernel)⟩

/-- A router and two clients: a REGISTER and a CALL, under both names. -/
example : let vs : List System.Move :=
      [.act (.join ⟨1, [], [], [], [], false, none, none⟩), .act (.join ⟨7, [], [], [], [], false, none, none⟩),
       .inject 7 (.register 1 none (str "p")), .act (.route 7 [] [] 0), .inject 1 (.call 1 none (str "p") none none Bin.none), .act (.route 1 [] [] 0)]
    ((System.Log.new.moves wildcardMatch (fun _ => true) vs).map fun l => (l.inbox 7).length) = some 2 ∧
    ((System.Log.new.moves wildcardMatch (fun _ => true) (vs.map (move (str "com." ++ ·)))).map fun l => (l.inbox 7).length) = some 2 := by
  decide +kernel

end Wamp.Uris
