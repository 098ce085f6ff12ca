import Verif.Lemmas.Radix
import Verif.Lemmas.Router
/-!
# Removal from the radix tree, and the lookup
-/
namespace Wamp.Radix
open Wamp

variable {V : Type}

theorem merge_spec (n : Node V) (h : n.Ok) : (merge n).Ok ∧ (∃ z, (merge n).pfx = n.pfx ++ z) ∧ ∀ s, (merge n).find s = n.find s := by
  unfold merge
  split
  · rename_i p c l q es
    rw [Node.Ok, Edges.Ok] at h
    obtain ⟨⟨q', hq⟩, h1, -, -⟩ := h
    have hq : q = c :: q' := hq
    refine ⟨h1, ⟨q, rfl⟩, fun s => ?_⟩
    have hu := under_below (Node.mk l (p ++ q) es) p q rfl
    by_cases hp : p <+: s
    · obtain ⟨t, rfl⟩ := hp
      rw [← hu t]
      have e : (Node.mk none p (.cons c (.mk l q es) .nil)).find (p ++ t) = (Node.mk none p (.cons c (.mk l q es) .nil)).get t := below_append _ t
      rw [e]
      show (Node.mk l q es).find t = _
      cases t with
      | nil =>
        rw [below_not (Node.mk l q es) (by show ¬ q <+: []; rw [hq]; simp)]
        rfl
      | cons d t =>
        rw [Node.get, get_cons]
        split
        · rfl
        · rename_i hd
          rw [below_not (Node.mk l q es) (by show ¬ q <+: _; rw [hq, List.cons_prefix_cons]; exact fun h => hd h.1.symm)]
          rfl
    · rw [below_not (Node.mk none p _) hp, below_not]
      intro hh
      exact hp ((List.prefix_append p q).trans hh)
  · exact ⟨h, ⟨[], (List.append_nil _).symm⟩, fun _ => rfl⟩

theorem empty_find (n : Node V) (h : n.isEmpty = true) (s : Str) : n.find s = none := by
  unfold Node.isEmpty at h
  split at h
  · unfold Node.find
    split
    · generalize List.drop _ s = t
      cases t <;> rfl
    · rfl
  · cases h

/-- What is found at a node, if one of the keys below it is gone. -/
theorem find_gone (m n : Node V) (k : Str) (hp : m.pfx = n.pfx) (h : ∀ t, m.get t = if t = k then none else n.get t) (s : Str) :
    m.find s = if s = n.pfx ++ k then none else n.find s := by
  by_cases hs : n.pfx <+: s
  · obtain ⟨t, rfl⟩ := hs
    have := below_append m t
    rw [hp] at this
    rw [this, below_append, h]
    simp only [List.append_cancel_left_eq]
  · rw [below_not m (by rw [hp]; exact hs), below_not n hs]
    split <;> rfl

/-- A node without a key. -/
structure Gone (root : Bool) (n : Node V) (k : Str) (n' : Node V) : Prop where
  was : (n.get k).isSome
  ok : n'.Ok
  pfx : ∃ z, n'.pfx = n.pfx ++ z
  root : root = true → n'.pfx = n.pfx
  find : ∀ s, n'.find s = if s = n.pfx ++ k then none else n.find s

theorem Gone.merge {n m : Node V} {k : Str} (was : (n.get k).isSome) (ok : m.Ok) (hp : m.pfx = n.pfx) (h : ∀ t, m.get t = if t = k then none else n.get t)
    (b root : Bool) : Gone root n k (if b && !root then Radix.merge m else m) := by
  split
  · rename_i hr
    obtain ⟨h1, h2, h3⟩ := merge_spec m ok
    refine ⟨was, h1, by rw [← hp]; exact h2, ?_, fun s => by rw [h3]; exact find_gone m n k hp h s⟩
    intro e
    subst e
    simp at hr
  · exact ⟨was, ok, ⟨[], by rw [hp, List.append_nil]⟩, fun _ => hp, find_gone m n k hp h⟩

mutual
theorem delete_spec : ∀ (n : Node V), n.Ok → ∀ root k, (n.delete root k = none → n.get k = none) ∧ ∀ n', n.delete root k = some n' → Gone root n k n'
  | .mk none p es, h, root, [] => by
    rw [Node.delete]
    exact ⟨fun _ => rfl, fun _ h => by cases h⟩
  | .mk (some v) p es, h, root, [] => by
    rw [Node.delete]
    refine ⟨fun h => (by cases h), fun n' hn => ?_⟩
    cases hn
    have := Gone.merge (n := .mk (some v) p es) (m := .mk none p es) (k := []) rfl (by rw [Node.Ok] at h ⊢; exact h) rfl
      (fun t => by cases t with
        | nil => rfl
        | cons c t => rw [if_neg (by simp)]; rfl) true root
    cases root
    · exact this
    · exact this
  | .mk l p es, h, root, c :: s => by
    have hes : es.Ok := by rwa [Node.Ok] at h
    obtain ⟨h1, h2⟩ := deleteE_spec es hes c s
    rw [Node.delete]
    cases hd : es.delete c (c :: s) with
    | none => exact ⟨fun _ => h1 hd, fun _ h => by cases h⟩
    | some r =>
      obtain ⟨g1, g2, -, g4⟩ := h2 r hd
      refine ⟨fun h => (by cases h), fun n' hn => ?_⟩
      cases hn
      refine Gone.merge (n := .mk l p es) (m := .mk l p r.1) (k := c :: s) g1 (by rw [Node.Ok]; exact g2) rfl ?_ _ _
      intro t
      cases t with
      | nil => rfl
      | cons c' s' => exact g4 c' s'
theorem deleteE_spec : ∀ (es : Edges V), es.Ok → ∀ c s, (es.delete c (c :: s) = none → es.get c (c :: s) = none) ∧
    ∀ r, es.delete c (c :: s) = some r → (es.get c (c :: s)).isSome ∧ r.1.Ok ∧ (∀ x ∈ r.1.labels, x ∈ es.labels) ∧
      ∀ c' s', r.1.get c' (c' :: s') = if c' :: s' = c :: s then none else es.get c' (c' :: s')
  | .nil, _, c, s => by
    rw [Edges.delete]
    exact ⟨fun _ => rfl, fun _ h => by cases h⟩
  | .cons l n rest, h, c, s => by
    rw [Edges.Ok] at h
    obtain ⟨⟨q, hq⟩, h1, h2, h3⟩ := h
    rw [Edges.delete]
    by_cases hcl : c = l
    · subst hcl
      rw [if_pos rfl, get_cons, if_pos rfl]
      by_cases hp : n.pfx <+: c :: s
      · rw [if_pos (List.isPrefixOf_iff_prefix.2 hp)]
        obtain ⟨t, ht⟩ := hp
        rw [← ht, List.drop_left, below_append]
        obtain ⟨d1, d2⟩ := delete_spec n h1 false t
        cases hd : n.delete false t with
        | none => exact ⟨fun _ => d1 hd, fun _ h => by cases h⟩
        | some n' =>
          have G := d2 n' hd
          refine ⟨fun h => by (first | cases h | (simp only [Option.map] at h; cases h)), fun r hr => ?_⟩
          refine ⟨G.was, ?_⟩
          simp only [Option.map, Option.some.injEq] at hr
          split at hr
          · rename_i he
            cases hr
            refine ⟨h2, fun x hx => by rw [Edges.labels]; exact List.mem_cons_of_mem _ hx, ?_⟩
            intro c' s'
            rw [get_cons]
            by_cases hc : c' = c
            · subst hc
              rw [get_absent rest _ (lt_absent h3 (UInt8.le_refl _)), if_pos rfl]
              have := G.find (c' :: s')
              rw [empty_find n' he] at this
              exact this
            · rw [if_neg hc, if_neg]
              rw [ht]
              intro e
              cases e
              exact hc rfl
          · cases hr
            refine ⟨?_, fun x hx => hx, ?_⟩
            · rw [Edges.Ok]
              obtain ⟨z, hz⟩ := G.pfx
              exact ⟨⟨q ++ z, by rw [hz, hq]; rfl⟩, G.ok, h2, h3⟩
            · intro c' s'
              rw [get_cons, get_cons]
              by_cases hc : c' = c
              · subst hc
                rw [if_pos rfl, if_pos rfl]
                exact G.find (c' :: s')
              · rw [if_neg hc, if_neg hc, if_neg]
                rw [ht]
                intro e
                cases e
                exact hc rfl
      · rw [if_neg (by rw [List.isPrefixOf_iff_prefix]; exact hp), below_not n hp]
        exact ⟨fun _ => rfl, fun _ h => by cases h⟩
    · rw [if_neg hcl, get_cons, if_neg hcl]
      obtain ⟨d1, d2⟩ := deleteE_spec rest h2 c s
      cases hd : rest.delete c (c :: s) with
      | none => exact ⟨fun _ => d1 hd, fun _ h => by cases h⟩
      | some r =>
        obtain ⟨g1, g2, g3, g4⟩ := d2 r hd
        refine ⟨fun h => (by cases h), fun r' hr => ?_⟩
        cases hr
        refine ⟨g1, ?_, ?_, ?_⟩
        · rw [Edges.Ok]
          exact ⟨⟨q, hq⟩, h1, g2, fun x hx => h3 x (g3 x hx)⟩
        · intro x hx
          rw [Edges.labels] at hx ⊢
          rcases List.mem_cons.1 hx with rfl | hx
          · exact List.mem_cons_self ..
          · exact List.mem_cons_of_mem _ (g3 x hx)
        · intro c' s'
          rw [get_cons, get_cons]
          by_cases hc : c' = l
          · subst hc
            rw [if_pos rfl, if_pos rfl, if_neg]
            intro e
            cases e
            exact hcl rfl
          · rw [if_neg hc, if_neg hc]
            exact g4 c' s'
end

/-- The value at the longest prefix, or `last`. -/
def best (f : Str → Option V) : Str → Option V → Option V
  | [], last => (f []).or last
  | c :: s, last => best (fun t => f (c :: t)) s ((f []).or last)

theorem best_spec : ∀ (s : Str) (f : Str → Option V) (last : Option V),
    (∃ p v, p <+: s ∧ f p = some v ∧ (∀ p', p' <+: s → f p' ≠ none → p'.length ≤ p.length) ∧ best f s last = some v) ∨
    ((∀ p, p <+: s → f p = none) ∧ best f s last = last)
  | [], f, last => by
    cases hf : f [] with
    | none =>
      refine .inr ⟨fun p hp => by rw [List.prefix_nil.1 hp]; exact hf, by rw [best, hf]; rfl⟩
    | some v =>
      refine .inl ⟨[], v, List.prefix_refl _, hf, fun p hp _ => by rw [List.prefix_nil.1 hp]; exact Nat.le_refl _, by rw [best, hf]; rfl⟩
  | c :: s, f, last => by
    rcases best_spec s (fun t => f (c :: t)) ((f []).or last) with ⟨p, v, h1, h2, h3, h4⟩ | ⟨h1, h2⟩
    · refine .inl ⟨c :: p, v, by rw [List.cons_prefix_cons]; exact ⟨rfl, h1⟩, h2, ?_, h4⟩
      intro p' hp' hf
      cases p' with
      | nil => exact Nat.zero_le _
      | cons c' p' =>
        rw [List.cons_prefix_cons] at hp'
        obtain ⟨rfl, hp'⟩ := hp'
        exact Nat.succ_le_succ (h3 p' hp' hf)
    · have hn : ∀ c' p', c' :: p' <+: c :: s → f (c' :: p') = none := by
        intro c' p' hp'
        rw [List.cons_prefix_cons] at hp'
        obtain ⟨rfl, hp'⟩ := hp'
        exact h1 p' hp'
      cases hf : f [] with
      | none =>
        refine .inr ⟨?_, by rw [best, h2, hf]; rfl⟩
        intro p hp
        cases p with
        | nil => exact hf
        | cons c' p' => exact hn c' p' hp
      | some v =>
        refine .inl ⟨[], v, List.nil_prefix, hf, ?_, by rw [best, h2, hf]; rfl⟩
        intro p hp hne
        cases p with
        | nil => exact Nat.le_refl _
        | cons c' p' => exact absurd (hn c' p' hp) hne

theorem best_none {s : Str} {f : Str → Option V} (last : Option V) (h : ∀ p, p <+: s → f p = none) : best f s last = last := by
  rcases best_spec s f last with ⟨p, v, h1, h2, -, -⟩ | ⟨-, h2⟩
  · rw [h p h1] at h2; cases h2
  · exact h2

theorem best_skip : ∀ (p s : Str) (f : Str → Option V) (last : Option V), (∀ t, ¬ p <+: t → f t = none) →
    best f (p ++ s) last = best (fun t => f (p ++ t)) s last
  | [], _, _, _, _ => rfl
  | a :: p, s, f, last, h => by
    show best (fun t => f (a :: t)) (p ++ s) ((f []).or last) = _
    rw [h [] (by simp), Option.none_or]
    exact best_skip p s (fun t => f (a :: t)) last fun t ht => h (a :: t) (by rw [List.cons_prefix_cons]; exact fun hh => ht hh.2)

mutual
theorem longest_best : ∀ (n : Node V), n.Ok → ∀ s last, n.longest last s = best n.get s last
  | .mk l p es, _, [], last => by rw [Node.longest]; rfl
  | .mk l p es, h, c :: s, last => by
    rw [Node.longest]
    exact longestE_best es (by rwa [Node.Ok] at h) c s (l.or last)
theorem longestE_best : ∀ (es : Edges V), es.Ok → ∀ c s last, es.longest last c (c :: s) = best (fun t => es.get c (c :: t)) s last
  | .nil, _, c, s, last => by
    rw [Edges.longest, best_none]
    intro p _
    rfl
  | .cons l n rest, h, c, s, last => by
    rw [Edges.Ok] at h
    obtain ⟨⟨q, hq⟩, h1, h2, h3⟩ := h
    rw [Edges.longest]
    by_cases hcl : c = l
    · subst hcl
      rw [if_pos rfl]
      have e : (fun t => (Edges.cons c n rest).get c (c :: t)) = fun t => n.find (c :: t) := by
        funext t
        rw [get_cons, if_pos rfl]
      rw [e]
      by_cases hp : n.pfx <+: c :: s
      · rw [if_pos (List.isPrefixOf_iff_prefix.2 hp)]
        have hp' := hp
        rw [hq, List.cons_prefix_cons] at hp'
        obtain ⟨-, z, rfl⟩ := hp'
        have hz : c :: (q ++ z) = n.pfx ++ z := by rw [hq]; rfl
        rw [hz, List.drop_left, longest_best n h1 z last, best_skip]
        · congr 1
          funext t
          have : c :: (q ++ t) = n.pfx ++ t := by rw [hq]; rfl
          rw [this, below_append]
        · intro t ht
          apply below_not
          rw [hq, List.cons_prefix_cons]
          exact fun h => ht h.2
      · rw [if_neg (by rw [List.isPrefixOf_iff_prefix]; exact hp), best_none]
        intro t ht
        apply below_not
        intro hh
        exact hp (hh.trans (by rw [List.cons_prefix_cons]; exact ⟨rfl, ht⟩))
    · rw [if_neg hcl, longestE_best rest h2 c s last]
      congr 1
      funext t
      rw [get_cons, if_neg hcl]
end

/-- A tree that holds what a table holds. -/
structure Holds (t : Tree V) (m : AMap Str V) : Prop where
  ok : t.root.Ok
  pfx : t.root.pfx = []
  get : ∀ k, t.root.get k = m.get k
  size : t.size = m.length
  nodup : m.keys.Nodup

theorem length_set (m : AMap Str V) (k : Str) (v : V) : (m.set k v).length = if (m.get k).isSome then m.length else m.length + 1 := by
  induction m with
  | nil => rfl
  | cons e m ih =>
    rcases e with ⟨k', v'⟩
    simp only [AMap.set, AMap.get]
    split
    · rfl
    · rw [List.length_cons, ih]
      split <;> rfl

theorem del_absent (m : AMap Str V) (k : Str) (h : m.get k = none) : m.del k = m := by
  induction m with
  | nil => rfl
  | cons e m ih =>
    rcases e with ⟨k', v'⟩
    simp only [AMap.get] at h
    split at h
    · cases h
    · rename_i hk
      simp only [AMap.del, if_neg hk, ih h]

theorem length_del (m : AMap Str V) (k : Str) (hn : m.keys.Nodup) (h : (m.get k).isSome) : (m.del k).length = m.length - 1 := by
  induction m with
  | nil => cases h
  | cons e m ih =>
    rcases e with ⟨k', v'⟩
    have hn' : k' ∉ AMap.keys m ∧ (AMap.keys m).Nodup := List.nodup_cons.1 hn
    by_cases hk : k = k'
    · subst hk
      have : AMap.get m k = none := by
        cases hg : AMap.get m k with
        | none => rfl
        | some v => exact absurd ((AMap.mem_keys m k).2 (by rw [hg]; rfl)) hn'.1
      simp only [AMap.del, if_true, del_absent m k this, List.length_cons, Nat.add_sub_cancel]
    · simp only [AMap.get, if_neg hk] at h
      simp only [AMap.del, if_neg hk, List.length_cons, ih hn'.2 h]
      have := (AMap.mem_keys m k).2 h
      cases m with
      | nil => cases this
      | cons => simp

theorem find_root (n : Node V) (h : n.pfx = []) (s : Str) : n.find s = n.get s := by
  have := below_append n s
  rw [h] at this
  exact this

theorem holds_after : ∀ (ops : List (Op V)), Holds (Tree.after ops) (table ops)
  | [] => ⟨by simp [Tree.after, Tree.new, Node.Ok, Edges.Ok], rfl, fun k => by cases k <;> rfl, rfl, List.nodup_nil⟩
  | .insert k v :: ops => by
    have H := holds_after ops
    refine ⟨insert_ok v _ H.ok k, by rw [← H.pfx]; exact insert_pfx v _ k, ?_, ?_, AMap.nodup_set H.nodup k v⟩
    · intro k'
      show ((Tree.after ops).root.insert v k).get k' = ((table ops).set k v).get k'
      rw [insert_get v _ H.ok, AMap.get_set, H.get]
    · show (if ((Tree.after ops).root.get k).isSome then (Tree.after ops).size else (Tree.after ops).size + 1) = ((table ops).set k v).length
      rw [length_set, H.get, H.size]
  | .delete k :: ops => by
    have H := holds_after ops
    obtain ⟨d1, d2⟩ := delete_spec _ H.ok true k
    show Holds ((Tree.after ops).delete k) ((table ops).del k)
    unfold Tree.delete
    split
    · rename_i n' hd
      have G := d2 n' hd
      have hp : n'.pfx = [] := by rw [G.root rfl, H.pfx]
      refine ⟨G.ok, hp, ?_, ?_, AMap.nodup_del H.nodup k⟩
      · intro k'
        show n'.get k' = _
        rw [← find_root n' hp, G.find, H.pfx, List.nil_append, find_root _ H.pfx, AMap.get_del, H.get]
      · show (Tree.after ops).size - 1 = _
        rw [length_del _ _ H.nodup (by rw [← H.get]; exact G.was), H.size]
    · rename_i hd
      rw [del_absent _ _ (by rw [← H.get]; exact d1 hd)]
      exact H

theorem table_get : ∀ (ops : List (Op V)) (k : Str), (table ops).get k = stored k ops
  | [], _ => rfl
  | .insert k' v :: ops, k => by rw [table, AMap.get_set, stored, table_get ops]
  | .delete k' :: ops, k => by rw [table, AMap.get_del, stored, table_get ops]

theorem lookup_best (ops : List (Op V)) (name : Str) : (Tree.after ops).lookup name = best (fun k => stored k ops) name none := by
  have H := holds_after ops
  unfold Tree.lookup
  have hg : (Tree.after ops).root.get = fun k => stored k ops := by
    funext k
    rw [H.get, table_get]
  split
  · rw [longest_best _ H.ok, hg]
  · rename_i h0
    rw [best_none]
    intro p _
    show stored p ops = none
    have : table ops = [] := List.length_eq_zero_iff.1 (by have := H.size; omega)
    rw [← table_get, this]
    rfl

end Wamp.Radix
