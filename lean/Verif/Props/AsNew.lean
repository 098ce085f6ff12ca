import Verif.Spec.AsNew
import Verif.Props.Broker
/-!
# C122: a broker that everybody has left is as good as new
-/
namespace Wamp

theorem eraseDups_map {α β : Type} [DecidableEq α] [DecidableEq β] (f : α → β) (hf : ∀ x y, f x = f y → x = y) :
    ∀ (n : Nat) (l : List α), l.length ≤ n → (l.map f).eraseDups = l.eraseDups.map f
  | _, [], _ => rfl
  | n + 1, x :: l, h => by
    rw [List.map_cons, List.eraseDups_cons, List.eraseDups_cons, List.map_cons, List.filter_map]
    have : ((fun b => !b == f x) ∘ f) = fun b => !b == x := by
      funext b
      by_cases e : b = x
      · simp [e]
      · have : f b ≠ f x := fun h => e (hf _ _ h)
        show (!(f b == f x)) = !(b == x)
        rw [beq_eq_false_iff_ne.2 e, beq_eq_false_iff_ne.2 this]
    rw [this, eraseDups_map f hf n _ (Nat.le_trans (List.length_filter_le _ _) (Nat.le_of_succ_le_succ h))]

theorem arrange_map {α β : Type} [DecidableEq α] [DecidableEq β] (f : α → β) (hf : ∀ x y, f x = f y → x = y) (order ks : List α) :
    arrange (order.map f) (ks.map f) = (arrange order ks).map f := by
  have hc : ∀ (l : List α) x, (l.map f).contains (f x) = l.contains x := by
    intro l x
    rw [Bool.eq_iff_iff, List.contains_iff_mem, List.contains_iff_mem, List.mem_map]
    exact ⟨fun ⟨y, h1, h2⟩ => hf _ _ h2 ▸ h1, fun h => ⟨x, h, rfl⟩⟩
  simp only [arrange, eraseDups_map f hf _ order (Nat.le_refl _), List.filter_map, List.map_append]
  congr 2
  · congr 1; funext x; exact hc ks x
  · congr 1; funext x; simp only [Function.comp, hc order x]

namespace AMap
variable {K V L W : Type} [DecidableEq K] [DecidableEq L]

/-- Keys and values replaced. -/
def remap (f : K → L) (g : V → W) (m : AMap K V) : AMap L W := m.map fun x => (f x.1, g x.2)

variable {f : K → L} {g : V → W}

theorem get_remap (hf : ∀ x y, f x = f y → x = y) (m : AMap K V) (k : K) : (m.remap f g).get (f k) = (m.get k).map g := by
  induction m with
  | nil => rfl
  | cons x m ih =>
    show AMap.get ((f x.1, g x.2) :: remap f g m) (f k) = (AMap.get ((x.1, x.2) :: m) k).map g
    simp only [get]
    by_cases e : k = x.1
    · rw [if_pos e, if_pos (congrArg f e)]; rfl
    · rw [if_neg e, if_neg fun h => e (hf _ _ h)]; exact ih

theorem set_remap (hf : ∀ x y, f x = f y → x = y) (m : AMap K V) (k : K) (v : V) :
    (m.remap f g).set (f k) (g v) = (m.set k v).remap f g := by
  induction m with
  | nil => rfl
  | cons x m ih =>
    show AMap.set ((f x.1, g x.2) :: remap f g m) (f k) (g v) = (AMap.set ((x.1, x.2) :: m) k v).remap f g
    simp only [set]
    by_cases e : k = x.1
    · rw [if_pos e, if_pos (congrArg f e)]; rfl
    · rw [if_neg e, if_neg fun h => e (hf _ _ h), ih]; rfl

theorem del_remap (hf : ∀ x y, f x = f y → x = y) (m : AMap K V) (k : K) :
    (m.remap f g).del (f k) = (m.del k).remap f g := by
  induction m with
  | nil => rfl
  | cons x m ih =>
    show AMap.del ((f x.1, g x.2) :: remap f g m) (f k) = (AMap.del ((x.1, x.2) :: m) k).remap f g
    simp only [del]
    by_cases e : k = x.1
    · rw [if_pos e, if_pos (congrArg f e)]; exact ih
    · rw [if_neg e, if_neg fun h => e (hf _ _ h), ih]; rfl

omit [DecidableEq K] [DecidableEq L] in
theorem keys_remap (m : AMap K V) : (m.remap f g).keys = m.keys.map f := by
  simp [keys, remap, Function.comp_def]

end AMap

theorem longestPrefix_remap {V W : Type} (g : V → W) (t : AMap Str V) (u : Str) :
    longestPrefix (t.remap id g) u = (longestPrefix t u).map g := by
  have hg : ∀ k, (t.remap id g).get k = (t.get k).map g := fun k => AMap.get_remap (f := id) (fun _ _ h => h) t k
  have : ∀ n, longestPrefix.go (t.remap id g) u n = (longestPrefix.go t u n).map g := by
    intro n
    induction n with
    | zero => simp only [longestPrefix.go, hg]
    | succ n ih =>
      simp only [longestPrefix.go, hg, ih]
      cases t.get (u.take (n + 1)) <;> rfl
  exact this _

theorem firstWildcard_remap {V W : Type} (w : Str → Str → Bool) (order : List Str) (g : V → W) (t : AMap Str V) (u : Str) :
    firstWildcard w order (t.remap id g) u = (firstWildcard w order t u).map g := by
  have hg : ∀ k, (t.remap id g).get k = (t.get k).map g := fun k => AMap.get_remap (f := id) (fun _ _ h => h) t k
  simp only [firstWildcard, AMap.keys_remap, List.map_id]
  cases (arrange order t.keys).find? fun pattern => w u pattern with
  | none => rfl
  | some p => exact hg p

namespace Broker
variable {w : Str → Str → Bool}

/-- The same subscription with another ID. -/
def Sub.shift (f : Nat → Nat) (x : Sub) : Sub := { x with id := f x.id }

/-- The broker `b` is like `a` with IDs renamed by `f` and objects at addresses larger by `d`. -/
structure Alike (f : Nat → Nat) (d : Nat) (a b : State) : Prop where
  heap : ∀ p, p < a.next → b.heap (p + d) = (a.heap p).shift f
  next : b.next = a.next + d
  top : ∀ t, b.byTopic t = (a.byTopic t).map (· + d)
  bys : ∀ s, b.bySession s = (a.bySession s).map (AMap.remap f (· + d))
  sess : b.sessions = a.sessions
  tree : b.tree = a.tree.remap id (· + d)
  wc : b.wc = a.wc.remap id (· + d)
  det : b.details = a.details
  gen : ∀ k, f (a.idGen + 1 + k) = b.idGen + 1 + k
  le : a.idGen ≤ b.idGen
  inj : ∀ x y, f x = f y → x = y
  tb : ∀ t p, a.byTopic t = some p → p < a.next
  sb : ∀ s m i p, a.bySession s = some m → m.get i = some p → p < a.next
  rb : ∀ t p, a.tree.get t = some p → p < a.next
  wb : ∀ t p, a.wc.get t = some p → p < a.next

theorem add_inj (c : Nat) : ∀ x y : Nat, x + c = y + c → x = y := fun _ _ h => Nat.add_right_cancel h
theorem id_inj {α : Type} : ∀ x y : α, id x = id y → x = y := fun _ _ h => h

variable {f : Nat → Nat} {d : Nat} {a b : State}

theorem Alike.next_gen (h : Alike f d a b) (k : Nat) : f (a.idGen + 1 + 1 + k) = b.idGen + 1 + 1 + k := by
  have := h.gen (k + 1)
  rwa [show a.idGen + 1 + (k + 1) = a.idGen + 1 + 1 + k by omega, show b.idGen + 1 + (k + 1) = b.idGen + 1 + 1 + k by omega] at this

theorem Alike.hset (h : Alike f d a b) (p : Nat) (x : Sub) (q : Nat) (hq : q < a.next) :
    Wamp.hset b.heap (p + d) (x.shift f) (q + d) = (Wamp.hset a.heap p x q).shift f := by
  simp only [Wamp.hset]
  by_cases e : q = p
  · rw [if_pos e, if_pos (by omega)]
  · rw [if_neg e, if_neg (by omega)]; exact h.heap q hq

theorem Alike.add (h : Alike f d a b) (x : SessionDetails) :
    Alike f d (addSession a x).1 (addSession b x).1 ∧ (addSession b x).2 = (addSession a x).2 := by
  have e : (b.bySession x.id).isSome = (a.bySession x.id).isSome := by rw [h.bys]; simp
  simp only [addSession, e]
  split
  · exact ⟨h, rfl⟩
  · refine ⟨{ h with bys := ?_, sess := ?_, sb := ?_ }, rfl⟩
    · intro s
      simp only [FMap.set_apply]
      split
      · rfl
      · exact h.bys s
    · simp only [h.sess]
    · intro s m i p hm hi
      simp only [FMap.set_apply] at hm
      split at hm
      · cases hm; cases hi
      · exact h.sb s m i p hm hi

theorem Alike.subscribe (h : Alike f d a b) (hg : b.idGen < maxID) (s r : Nat) (o : GoMap) (t : Str) :
    Alike f d (subscribe a s r o t).1 (subscribe b s r o t).1 ∧
      (subscribe b s r o t).2 = (subscribe a s r o t).2.map fun x => (renameMsg f x.1, x.2) := by
  have e1 := h.bys s
  have e2 := h.top t
  have hgb := nextID_small hg
  have hga : nextID a.idGen = (a.idGen + 1, a.idGen + 1) := nextID_small (by have := h.le; omega)
  simp only [Broker.subscribe, hgb, hga, e1, e2]
  cases hm : a.bySession s with
  | none => exact ⟨h, rfl⟩
  | some m =>
    cases ht : a.byTopic t with
    | some p =>
      have hp := h.tb t p ht
      have hh := h.heap p hp
      simp only [Option.map_some, hh]
      refine ⟨{ h with heap := ?_, bys := ?_, sb := ?_ }, rfl⟩
      · intro q hq
        exact h.hset p { a.heap p with subscribers := if (a.heap p).subscribers.contains s then (a.heap p).subscribers else (a.heap p).subscribers ++ [s] } q hq
      · intro x
        simp only [FMap.set_apply]
        split
        · simp only [Option.map_some]
          exact congrArg some (AMap.set_remap (f := f) (g := (· + d)) h.inj m (a.heap p).id p)
        · exact h.bys x
      · intro x m' i q hx hi
        simp only [FMap.set_apply] at hx
        split at hx
        · cases hx
          rw [AMap.get_set] at hi
          split at hi
          · cases hi; exact hp
          · exact h.sb s m i q hm hi
        · exact h.sb x m' i q hx hi
    | none =>
      simp only [Option.map_some, Option.map_none]
      have hid : b.idGen + 1 = f (a.idGen + 1) := (h.gen 0).symm
      have hnx : b.next = a.next + d := h.next
      have hsm : ∀ (x : AMap Str Nat), AMap.set (x.remap id (· + d)) t (a.next + d) = (x.set t a.next).remap id (· + d) :=
        fun x => AMap.set_remap (f := id) (g := (· + d)) id_inj x t a.next
      have hlt : ∀ {p : Nat}, p < a.next → p < a.next + 1 := fun h => Nat.lt_succ_of_lt h
      refine ⟨{ heap := ?_, next := ?_, top := ?_, bys := ?_, sess := h.sess, tree := ?_, wc := ?_, det := h.det, gen := h.next_gen, le := Nat.succ_le_succ h.le, inj := h.inj
                tb := ?_, sb := ?_, rb := ?_, wb := ?_ }, ?_⟩
      · intro q hq
        simp only [hnx, Wamp.hset, Nat.add_right_cancel_iff]
        split
        · simp only [Sub.shift, hid]
        · rename_i hne
          exact h.heap q (by have : q < a.next + 1 := hq; omega)
      · show b.next + 1 = a.next + 1 + d
        omega
      · intro t'
        simp only [FMap.set_apply, hnx]
        split
        · rfl
        · exact h.top t'
      · intro x
        simp only [FMap.set_apply, hid, hnx]
        split
        · simp only [Option.map_some]
          exact congrArg some (AMap.set_remap (f := f) (g := (· + d)) h.inj m (a.idGen + 1) a.next)
        · exact h.bys x
      · simp only [h.tree, hnx, hsm]; split <;> rfl
      · simp only [h.wc, hnx, hsm]; split <;> rfl
      · intro t' p hp
        simp only [FMap.set_apply] at hp
        split at hp
        · cases hp; exact Nat.lt_succ_self _
        · exact hlt (h.tb t' p hp)
      · intro x m' i q hx hi
        simp only [FMap.set_apply] at hx
        split at hx
        · cases hx
          rw [AMap.get_set] at hi
          split at hi
          · cases hi; exact Nat.lt_succ_self _
          · exact hlt (h.sb s m i q hm hi)
        · exact hlt (h.sb x m' i q hx hi)
      · intro t' p hp
        simp only at hp
        split at hp
        · rw [AMap.get_set] at hp
          split at hp
          · cases hp; exact Nat.lt_succ_self _
          · exact hlt (h.rb t' p hp)
        · exact hlt (h.rb t' p hp)
      · intro t' p hp
        simp only at hp
        split at hp
        · rw [AMap.get_set] at hp
          split at hp
          · cases hp; exact Nat.lt_succ_self _
          · exact hlt (h.wb t' p hp)
        · exact hlt (h.wb t' p hp)
      · simp only [hid]; rfl

theorem del_bound {x : AMap Str Nat} {n : Nat} {k : Str} (h : ∀ t p, x.get t = some p → p < n) : ∀ t p, (x.del k).get t = some p → p < n := by
  intro t p hp
  rw [AMap.get_del] at hp
  split at hp
  · cases hp
  · exact h t p hp

/-- What UNSUBSCRIBE and the loop of a removal have in common. -/
theorem Alike.drop (h : Alike f d a b) (s p : Nat) (t : Str) :
    let x := { a.heap p with subscribers := (a.heap p).subscribers.filter (· ≠ s) }
    Alike f d
      { a with heap := Wamp.hset a.heap p x, byTopic := if x.subscribers.isEmpty then a.byTopic.del t else a.byTopic
               tree := if x.mtch = matchPrefix then a.tree.del x.topic else a.tree
               wc := if x.mtch = matchWildcard then a.wc.del t else a.wc }
      { b with heap := Wamp.hset b.heap (p + d) (x.shift f), byTopic := if x.subscribers.isEmpty then b.byTopic.del t else b.byTopic
               tree := if x.mtch = matchPrefix then b.tree.del x.topic else b.tree
               wc := if x.mtch = matchWildcard then b.wc.del t else b.wc } := by
  intro x
  have hdm : ∀ (y : AMap Str Nat) k, AMap.del (y.remap id (· + d)) k = (y.del k).remap id (· + d) :=
    fun y k => AMap.del_remap (f := id) (g := (· + d)) id_inj y k
  refine { h with heap := fun q hq => h.hset p x q hq, top := ?_, tree := ?_, wc := ?_, tb := ?_, rb := ?_, wb := ?_ }
  · intro t'
    simp only
    split
    · simp only [FMap.del_apply]
      split
      · rfl
      · exact h.top t'
    · exact h.top t'
  · simp only [h.tree, hdm]; split <;> rfl
  · simp only [h.wc, hdm]; split <;> rfl
  · intro t' q hq
    simp only at hq
    split at hq
    · simp only [FMap.del_apply] at hq
      split at hq
      · cases hq
      · exact h.tb t' q hq
    · exact h.tb t' q hq
  · simp only
    split
    · exact del_bound h.rb
    · exact h.rb
  · simp only
    split
    · exact del_bound h.wb
    · exact h.wb

theorem Alike.unsubscribe (h : Alike f d a b) (s r i : Nat) :
    Alike f d (unsubscribe a s r i).1 (unsubscribe b s r (f i)).1 ∧
      (unsubscribe b s r (f i)).2 = (unsubscribe a s r i).2.map fun x => (renameMsg f x.1, x.2) := by
  have e1 := h.bys s
  simp only [Broker.unsubscribe, e1]
  cases hm : a.bySession s with
  | none => exact ⟨h, rfl⟩
  | some m =>
    simp only [Option.map_some, AMap.get_remap (f := f) (g := (· + d)) h.inj m i]
    cases hi : m.get i with
    | none => exact ⟨h, rfl⟩
    | some p =>
      have hp := h.sb s m i p hm hi
      have hh := h.heap p hp
      simp only [Option.map_some, hh]
      refine ⟨?_, rfl⟩
      refine { h.drop s p (a.heap p).topic with bys := ?_, sb := ?_ }
      · intro x
        simp only [FMap.set_apply]
        split
        · simp only [Option.map_some]
          exact congrArg some (AMap.del_remap (f := f) (g := (· + d)) h.inj m (a.heap p).id)
        · exact h.bys x
      · intro x m' j q hx hj
        simp only [FMap.set_apply] at hx
        split at hx
        · cases hx
          rw [AMap.get_del] at hj
          split at hj
          · cases hj
          · exact h.sb s m j q hm hj
        · exact h.sb x m' j q hx hj

/-- Two brokers alike, or both calls failed in the same way. -/
def AlikeRes (f : Nat → Nat) (d : Nat) : Res State → Res State → Prop
  | .ok a, .ok b => Alike f d a b
  | .err, .err => True
  | .panic, .panic => True
  | _, _ => False

theorem removeStep_next {s p : Nat} {a a' : State} (h : removeStep s a p = .ok a') : a'.next = a.next := by
  simp only [removeStep] at h
  split at h
  · cases h
  · cases h; rfl

theorem Alike.removeStep (h : Alike f d a b) (s p : Nat) (hp : p < a.next) :
    AlikeRes f d (removeStep s a p) (removeStep s b (p + d)) := by
  have e := h.top (a.heap p).topic
  have e' : (b.heap (p + d)).topic = (a.heap p).topic := by rw [h.heap p hp]; rfl
  simp only [Broker.removeStep, e', e]
  cases hq : a.byTopic (a.heap p).topic with
  | none => trivial
  | some q =>
    simp only [Option.map_some]
    have hq' := h.tb _ q hq
    rw [h.heap q hq']
    exact h.drop s q (a.heap p).topic

theorem Alike.removeLoop (h : Alike f d a b) (s : Nat) : ∀ (ps : List Nat), (∀ p ∈ ps, p < a.next) →
    AlikeRes f d (removeLoop s a ps) (removeLoop s b (ps.map (· + d))) := by
  intro ps
  induction ps generalizing a b with
  | nil => intro _; exact h
  | cons p ps ih =>
    intro hb
    have hs := h.removeStep s p (hb p List.mem_cons_self)
    simp only [List.map_cons, Broker.removeLoop]
    cases ha : Broker.removeStep s a p with
    | ok a' =>
      cases hb' : Broker.removeStep s b (p + d) with
      | ok b' =>
        rw [ha, hb'] at hs
        refine ih hs fun q hq => ?_
        rw [removeStep_next ha]
        exact hb q (List.mem_cons_of_mem _ hq)
      | err => rw [ha, hb'] at hs; exact hs.elim
      | panic => rw [ha, hb'] at hs; exact hs.elim
    | err =>
      cases hb' : Broker.removeStep s b (p + d) with
      | ok b' => rw [ha, hb'] at hs; exact hs.elim
      | err => trivial
      | panic => rw [ha, hb'] at hs; exact hs.elim
    | panic =>
      cases hb' : Broker.removeStep s b (p + d) with
      | ok b' => rw [ha, hb'] at hs; exact hs.elim
      | err => rw [ha, hb'] at hs; exact hs.elim
      | panic => trivial

theorem Alike.remove (h : Alike f d a b) (s : Nat) (order : List Nat) :
    Alike f d (removeSession a s order).1 (removeSession b s (order.map f)).1 ∧
      (removeSession b s (order.map f)).2 = (removeSession a s order).2 := by
  have e1 := h.bys s
  simp only [removeSession, e1]
  cases hm : a.bySession s with
  | none => exact ⟨h, rfl⟩
  | some m =>
    simp only [Option.map_some, AMap.keys_remap, arrange_map f h.inj, List.filterMap_map]
    have hf : (AMap.remap f (· + d) m).get ∘ f = fun i => (m.get i).map (· + d) :=
      funext fun i => AMap.get_remap (f := f) (g := (· + d)) h.inj m i
    have hf' : (arrange order m.keys).filterMap (fun i => (m.get i).map (· + d)) = ((arrange order m.keys).filterMap m.get).map (· + d) := by
      rw [List.map_filterMap]
    rw [hf, hf']
    have h0 : Alike f d { a with bySession := a.bySession.del s } { b with bySession := b.bySession.del s } := by
      refine { h with bys := ?_, sb := ?_ }
      · intro x
        simp only [FMap.del_apply]
        split
        · rfl
        · exact h.bys x
      · intro x m' j q hx hj
        simp only [FMap.del_apply] at hx
        split at hx
        · cases hx
        · exact h.sb x m' j q hx hj
    have hl := h0.removeLoop s ((arrange order m.keys).filterMap m.get) (by
      intro p hp
      obtain ⟨i, -, hi⟩ := List.mem_filterMap.1 hp
      exact h.sb s m i p hm hi)
    revert hl
    generalize Broker.removeLoop s { a with bySession := a.bySession.del s } ((arrange order m.keys).filterMap m.get) = x
    generalize Broker.removeLoop s { b with bySession := b.bySession.del s } (((arrange order m.keys).filterMap m.get).map (· + d)) = y
    intro hl
    cases x with
    | ok x =>
      cases y with
      | ok y =>
        have hl : Alike f d x y := hl
        exact ⟨{ hl with sess := by simp only [hl.sess] }, rfl⟩
      | err => exact hl.elim
      | panic => exact hl.elim
    | err =>
      cases y with
      | ok y => exact hl.elim
      | err => exact ⟨h, rfl⟩
      | panic => exact hl.elim
    | panic =>
      cases y with
      | ok y => exact hl.elim
      | err => exact hl.elim
      | panic => exact ⟨h, rfl⟩

theorem Alike.lookup (h : Alike f d a b) (order : List Str) (t : Str) :
    lookup w order b t = (lookup w order a t).map (· + d) ∧ ∀ p, lookup w order a t = some p → p < a.next := by
  simp only [Broker.lookup, h.top, h.tree, h.wc, longestPrefix_remap, firstWildcard_remap]
  cases ht : a.byTopic t with
  | some p =>
    have hp := h.tb t p ht
    simp only [Option.map_some, h.heap p hp, Sub.shift]
    split
    · cases hl : longestPrefix a.tree t with
      | none => exact ⟨rfl, fun q hq => by cases hq; exact hp⟩
      | some q =>
        obtain ⟨k, -, hk, -⟩ := longestPrefix_some hl
        exact ⟨rfl, fun q' hq => by cases hq; exact h.rb k q hk⟩
    · exact ⟨rfl, fun q hq => by cases hq; exact hp⟩
  | none =>
    simp only [Option.map_none]
    cases hl : longestPrefix a.tree t with
    | some q =>
      obtain ⟨k, -, hk, -⟩ := longestPrefix_some hl
      exact ⟨rfl, fun q' hq => by cases hq; exact h.rb k q hk⟩
    | none =>
      refine ⟨rfl, fun q hq => ?_⟩
      obtain ⟨k, -, hk⟩ := firstWildcard_some hq
      exact h.wb k q hk

theorem Alike.publish (h : Alike f d a b) (hg : b.idGen < maxID) (s q : Nat) (o : GoMap) (t : Str) (x : GoSlice) (k : GoMap)
    (wo : List Str) (so : List Nat) :
    Alike f d (publish w a s q o t x k wo so).1 (publish w b s q o t x k wo so).1 ∧
      (publish w b s q o t x k wo so).2.map Out.pub = ((publish w a s q o t x k wo so).2.map Out.pub).map (renameOut f) := by
  have e1 := h.bys s
  have hgb := nextID_small hg
  have hga : nextID a.idGen = (a.idGen + 1, a.idGen + 1) := nextID_small (by have := h.le; omega)
  have hid : b.idGen + 1 = f (a.idGen + 1) := (h.gen 0).symm
  have hal : Alike f d { a with idGen := a.idGen + 1 } { b with idGen := b.idGen + 1 } :=
    { h with gen := h.next_gen, le := Nat.succ_le_succ h.le }
  rw [hid] at hal
  obtain ⟨hl, hlb⟩ := h.lookup (w := w) wo t
  have hed : eventDetails b s t = eventDetails a s t := by simp only [eventDetails, h.det, h.sess]
  simp only [Broker.publish, e1, hgb, hga, hid, hl, hed]
  cases hm : a.bySession s with
  | none => exact ⟨h, rfl⟩
  | some m =>
    simp only [Option.map_some]
    cases hp : Broker.lookup w wo a t with
    | none =>
      refine ⟨hal, ?_⟩
      simp only [Option.map_none, Res.map_ok]
      split <;> rfl
    | some p =>
      simp only [Option.map_some, h.heap p (hlb p hp), Sub.shift]
      split
      · refine ⟨hal, ?_⟩
        simp only [Res.map_ok]
        split <;> rfl
      · cases eventDetails a s t with
        | ok y =>
          refine ⟨hal, ?_⟩
          simp only [Res.map_ok]
          split <;> rfl
        | err => exact ⟨hal, rfl⟩
        | panic => exact ⟨hal, rfl⟩

theorem shift_err {f : Nat → Nat} {r : Res Unit} : (r.map fun _ => Out.unit).map (renameOut f) = r.map fun _ => Out.unit := by
  cases r <;> rfl

theorem shift_msg {f : Nat → Nat} {r : Res (Msg × Nat)} :
    (r.map fun x => Out.msg x.1 x.2).map (renameOut f) = (r.map fun x => (renameMsg f x.1, x.2)).map fun x => Out.msg x.1 x.2 := by
  cases r <;> rfl

theorem Alike.step (h : Alike f d a b) (hg : b.idGen < maxID) (op : Op) :
    Alike f d (step w a op).1 (step w b (renameOp f op)).1 ∧ (step w b (renameOp f op)).2 = (step w a op).2.map (renameOut f) := by
  cases op with
  | add x =>
    obtain ⟨h1, h2⟩ := h.add x
    exact ⟨h1, by simp only [renameOp, Broker.step, h2, shift_err]⟩
  | remove s o =>
    obtain ⟨h1, h2⟩ := h.remove s o
    exact ⟨h1, by simp only [renameOp, Broker.step, h2, shift_err]⟩
  | has t =>
    refine ⟨h, ?_⟩
    simp only [renameOp, Broker.step, hasSubscription, h.top, Option.isSome_map, Res.map_ok]
    rfl
  | disclose on => exact ⟨{ h with det := rfl }, rfl⟩
  | publish s q o t x k wo so => exact h.publish hg s q o t x k wo so
  | receive s m =>
    cases m with
    | subscribe r o t =>
      obtain ⟨h1, h2⟩ := h.subscribe hg s r o t
      refine ⟨h1, ?_⟩
      simp only [renameOp, Broker.step, receive, h2, shift_msg]
    | unsubscribe r i =>
      obtain ⟨h1, h2⟩ := h.unsubscribe s r i
      refine ⟨h1, ?_⟩
      simp only [renameOp, Broker.step, receive, h2, shift_msg]
    | _ => exact ⟨h, rfl⟩

theorem alike_replies {h : List Event} (hh : Hist w h b) (ha : Alike f d a b) (ops : List Op) (hlen : h.length + ops.length ≤ 2 ^ 53) :
    replies w b (ops.map (renameOp f)) = (replies w a ops).map (Res.map (renameOut f)) := by
  induction ops generalizing h a b with
  | nil => rfl
  | cons op ops ih =>
    simp only [List.length_cons] at hlen
    have hg : b.idGen < maxID := by
      have := (hist_inv hh (by show _ ≤ 2 ^ 53; omega)).gen
      show _ < 2 ^ 53
      omega
    obtain ⟨h1, h2⟩ := ha.step (w := w) hg op
    simp only [List.map_cons, replies, h2]
    rw [ih (hh.step (renameOp f op)) h1 (by simp only [List.length_cons]; omega)]

theorem map_get_nil {V : Type} {m : AMap Str V} (h : ∀ k, m.get k = none) : m = [] := by
  rw [← List.isEmpty_iff, AMap.isEmpty_iff]; exact h

theorem alike_init {h : List Event} (hh : Hist w h b) (hlen : h.length ≤ 2 ^ 53) (hn : ∀ s, ¬attached h s) :
    Alike (· + b.idGen) b.next (autoDisclose init (disclosed h)) b := by
  have hi := hist_inv hh hlen
  have hb : ∀ s, b.bySession s = none := by
    intro s
    have h1 := hi.bys s
    have h2 := hn s
    cases hs : b.bySession s with
    | none => rfl
    | some m => rw [hs] at h1; exact absurd h1.symm h2
  have ht : ∀ t, b.byTopic t = none := by
    intro t
    cases ht : b.byTopic t with
    | none => rfl
    | some p =>
      obtain ⟨s, hs⟩ := List.exists_mem_of_ne_nil _ (hi.top t p ht).2.2.1
      obtain ⟨m, hm, -⟩ := hi.ses' t p s ht hs
      rw [hb s] at hm; cases hm
  refine { heap := fun p hp => absurd hp (Nat.not_lt_zero p), next := (Nat.zero_add _).symm, top := ht, bys := hb, sess := ?_, tree := ?_
           wc := ?_, det := hi.det, gen := fun k => by show 0 + 1 + k + b.idGen = b.idGen + 1 + k; omega, le := Nat.zero_le _, inj := add_inj _
           tb := ?_, sb := ?_, rb := ?_, wb := ?_ }
  · funext s
    rw [hi.sess]
    have := hn s
    cases hs : session h s with
    | none => rfl
    | some x => exact absurd (by simp [attached, hs]) this
  · refine map_get_nil fun t => ?_
    cases hg : b.tree.get t with
    | none => rfl
    | some p => exact nomatch ((hi.tre t p).1 hg).1.symm.trans (ht t)
  · refine map_get_nil fun t => ?_
    cases hg : b.wc.get t with
    | none => rfl
    | some p => exact nomatch ((hi.wcs t p).1 hg).1.symm.trans (ht t)
  · intro t p hp; cases hp
  · intro s m i p hp; cases hp
  · intro t p hp; cases hp
  · intro t p hp; cases hp

/-- **C122** After every history that leaves nobody attached, the broker is as good as new: for some `c`, whatever calls are made from
then on, it answers as a new broker does, except that all subscription and publication IDs are larger by `c` and that
`AutoDisclosePublisher` keeps its setting.  (With up to 2^53 calls in total.) -/
theorem C122_as_new {h : List Event} (hh : Hist w h b) (hn : ∀ s, ¬attached h s) :
    ∃ c, ∀ ops : List Op, h.length + ops.length ≤ 2 ^ 53 →
      replies w b (ops.map (renameOp (· + c))) = (replies w (step w init (.disclose (disclosed h))).1 ops).map (Res.map (renameOut (· + c))) :=
  ⟨b.idGen, fun ops hlen => alike_replies hh (alike_init hh (by omega) hn) ops hlen⟩

/-- Sessions 1 and 2 used the broker and left. -/
def past : List Op := [.add (who 1), .add (who 2), subWith 1 "a" "prefix", sub 2 "t", pub 1 "t", .receive 1 (.unsubscribe 4 1), .remove 2 [],
  .disclose true, .remove 1 []]

/-- What sessions do afterwards. -/
def future : List Op := [.add (who 2), sub 2 "t", .add (who 1), subWith 1 "t" "prefix", pub 1 "t", .receive 2 (.unsubscribe 9 1), pub 2 "tu",
  .remove 1 [], .has (str "t")]

/-- The IDs in a result. -/
def ids : Res Out → List Nat
  | .ok (.msg (.subscribed _ i) _) => [i]
  | .ok (.pub ⟨some (.event i n _ _ _), rs, _⟩) => i :: n :: rs
  | .ok (.bool x) => [if x then 1 else 0]
  | _ => []

/-- The session that a call adds. -/
def added (e : Event) : Option Nat :=
  match e.op with
  | .add x => some x.id
  | _ => none

theorem nobody {h : List Event} (hc : (h.filterMap added).all (fun s => (session h s).isNone) = true) : ∀ s, ¬attached h s := by
  have key : ∀ (h : List Event) s, attached h s → s ∈ h.filterMap added := by
    intro h
    induction h with
    | nil => intro s hs; cases hs
    | cons e h ih =>
      intro s hs
      have keep : attached h s → s ∈ (e :: h).filterMap added := by
        intro hs
        rw [List.filterMap_cons]
        split
        · exact ih s hs
        · exact List.mem_cons_of_mem _ (ih s hs)
      unfold attached session at hs
      split at hs
      · cases hs
      · split at hs
        · rename_i heq hx
          subst hx; cases heq
          simp [added]
        · rename_i heq _; cases heq; exact keep hs
      · split at hs
        · cases hs
        · rename_i heq _; cases heq; exact keep hs
      · rename_i heq; cases heq; exact keep hs
  intro s hs
  have := List.all_eq_true.1 hc s (key h s hs)
  rw [attached] at hs
  cases hx : session h s with
  | none => rw [hx] at hs; cases hs
  | some x => rw [hx] at this; cases this

/-- No wildcards. -/
def noWild : Str → Str → Bool := fun _ _ => false

example : (∀ s, ¬attached (exec noWild ([], init) past).1 s) ∧ disclosed (exec noWild ([], init) past).1 = true ∧
    (replies noWild (exec noWild ([], init) past).2 (future.map (renameOp (· + 3)))).map ids =
      [[], [4], [], [4], [4, 5, 2, 1], [], [], [], [0]] ∧
    (replies noWild (step noWild init (.disclose true)).1 future).map ids = [[], [1], [], [1], [1, 2, 2, 1], [], [], [], [0]] :=
  ⟨nobody (by decide +kernel), by decide +kernel, by decide +kernel, by decide +kernel⟩

end Broker
end Wamp
