import Verif.Spec.Radix
/-!
# Lemmas about the radix tree
-/
namespace Wamp.Radix
open Wamp

variable {V : Type}

/-- The labels of edges. -/
def Edges.labels : Edges V → List UInt8
  | .nil => []
  | .cons l _ rest => l :: rest.labels

mutual
/-- The edges of every node are sorted, and labelled with the first bytes of what they lead to. -/
def Node.Ok : Node V → Prop
  | .mk _ _ es => es.Ok
def Edges.Ok : Edges V → Prop
  | .nil => True
  | .cons l n rest => (∃ q, n.pfx = l :: q) ∧ n.Ok ∧ rest.Ok ∧ ∀ x ∈ rest.labels, l < x
end

/-- What a search that comes to a node finds. -/
def Node.find (n : Node V) (search : Str) : Option V := if n.pfx.isPrefixOf search then n.get (search.drop n.pfx.length) else none

theorem below_append (n : Node V) (t : Str) : n.find (n.pfx ++ t) = n.get t := by
  unfold Node.find
  rw [if_pos (by rw [List.isPrefixOf_iff_prefix]; exact List.prefix_append ..), List.drop_left]

theorem below_not (n : Node V) {s : Str} (h : ¬ n.pfx <+: s) : n.find s = none := by
  unfold Node.find
  rw [if_neg (by rw [List.isPrefixOf_iff_prefix]; exact h)]

theorem get_cons (l : UInt8) (n : Node V) (rest : Edges V) (c : UInt8) (s : Str) :
    (Edges.cons l n rest).get c s = if c = l then n.find s else rest.get c s := by
  rw [Edges.get]; rfl

theorem get_absent : ∀ (es : Edges V) {c : UInt8} (s : Str), c ∉ es.labels → es.get c s = none
  | .nil, _, _, _ => rfl
  | .cons l n rest, c, s, h => by
    rw [Edges.labels, List.mem_cons, not_or] at h
    rw [get_cons, if_neg h.1]
    exact get_absent rest s h.2

theorem lt_absent {es : Edges V} {l c : UInt8} (h : ∀ x ∈ es.labels, l < x) (hc : c ≤ l) : c ∉ es.labels := by
  intro hm
  have := h c hm
  rw [UInt8.lt_iff_toNat_lt] at this
  rw [UInt8.le_iff_toNat_le] at hc
  omega

theorem single_below (p : Str) (v : V) (s : Str) : (single p v).find s = if s = p then some v else none := by
  by_cases h : p <+: s
  · obtain ⟨t, rfl⟩ := h
    have : (single p v).find (p ++ t) = (single p v).get t := below_append (single p v) t
    rw [this]
    cases t with
    | nil => simp [single, Node.get]
    | cons a t => simp [single, Node.get, Edges.get]
  · rw [below_not (single p v) h, if_neg]
    rintro rfl
    exact h (List.prefix_refl _)

theorem common_spec : ∀ (s p : Str), ∃ u x y, s = u ++ x ∧ p = u ++ y ∧ u.length = common s p ∧
    ∀ a x' b y', x = a :: x' → y = b :: y' → a ≠ b
  | [], p => ⟨[], [], p, rfl, rfl, by simp [common], fun _ _ _ _ h => by cases h⟩
  | a :: s, [] => ⟨[], a :: s, [], rfl, rfl, by simp [common], fun _ _ _ _ _ h => by cases h⟩
  | a :: s, b :: p => by
    by_cases e : a = b
    · subst e
      obtain ⟨u, x, y, h1, h2, h3, h4⟩ := common_spec s p
      exact ⟨a :: u, x, y, by rw [h1]; rfl, by rw [h2]; rfl, by simp [common, h3], h4⟩
    · refine ⟨[], a :: s, b :: p, rfl, rfl, by simp [common, e], ?_⟩
      intro a' x' b' y' h1 h2
      cases h1; cases h2
      exact e

theorem common_full {s p : Str} (h : common s p = p.length) : ∃ t, s = p ++ t := by
  obtain ⟨u, x, y, h1, h2, h3, -⟩ := common_spec s p
  have : y = [] := by
    have := congrArg List.length h2
    rw [List.length_append] at this
    exact List.length_eq_zero_iff.1 (by omega)
  subst this
  rw [List.append_nil] at h2
  exact ⟨x, by rw [h1, h2]⟩

theorem under_below (n : Node V) (u y : Str) (h : n.pfx = u ++ y) (t : Str) : (n.under y).find t = n.find (u ++ t) := by
  cases n with
  | mk l p es =>
    have h : p = u ++ y := h
    subst h
    by_cases hp : y <+: t
    · obtain ⟨z, rfl⟩ := hp
      have h1 : (Node.under y (.mk l (u ++ y) es)).find (y ++ z) = (Node.mk l y es).get z := below_append (Node.mk l y es) z
      have h2 : (Node.mk l (u ++ y) es).find (u ++ y ++ z) = (Node.mk l (u ++ y) es).get z := below_append (Node.mk l (u ++ y) es) z
      rw [h1, ← List.append_assoc, h2]
      cases z <;> rfl
    · rw [below_not (Node.under y (.mk l (u ++ y) es)) hp, below_not]
      intro h
      exact hp ((List.prefix_append_right_inj u).1 h)

theorem add_one (b c : UInt8) (n m : Node V) (d : UInt8) (s : Str) (hbc : c ≠ b) :
    ((Edges.cons b n .nil).add c m).get d s = if d = c then m.find s else if d = b then n.find s else none := by
  simp only [Edges.add]
  split
  · rw [get_cons, get_cons]; rfl
  · rw [get_cons, get_cons]
    by_cases h : d = b
    · subst h
      rw [if_pos rfl, if_neg (Ne.symm hbc), if_pos rfl]
    · rw [if_neg h, if_neg h]; rfl

theorem split_below (n : Node V) (search : Str) (v : V) (h : common search n.pfx ≠ n.pfx.length) (s : Str) :
    (split n (common search n.pfx) search v).find s = if s = search then some v else n.find s := by
  obtain ⟨u, x, y, h1, h2, h3, h4⟩ := common_spec search n.pfx
  have hd : n.pfx.drop (common search n.pfx) = y := by rw [← h3]; conv => lhs; rw [h2]
                                                       exact List.drop_left
  have hs : search.drop (common search n.pfx) = x := by rw [← h3]; conv => lhs; rw [h1]
                                                        exact List.drop_left
  have ht : search.take (common search n.pfx) = u := by rw [← h3]; conv => lhs; rw [h1]
                                                        exact List.take_left
  unfold split
  simp only [hd, hs, ht]
  cases y with
  | nil =>
    exfalso
    rw [List.append_nil] at h2
    rw [h2] at h
    rw [h2] at h3
    exact h h3.symm
  | cons b y =>
    simp only []
    have hold := under_below n u (b :: y) h2
    have key : ∀ (e : Node V), e.pfx = u → (∀ t, e.get t = if t = x then some v else n.find (u ++ t)) →
        e.find s = if s = search then some v else n.find s := by
      intro e he hg
      by_cases hp : u <+: s
      · obtain ⟨t, rfl⟩ := hp
        have := below_append e t
        rw [he] at this
        rw [this, hg, h1]
        simp only [List.append_cancel_left_eq]
      · rw [below_not e (by rw [he]; exact hp), if_neg, below_not]
        · rw [h2]
          intro hh
          exact hp ((List.prefix_append u _).trans hh)
        · rintro rfl
          exact hp (by rw [h1]; exact List.prefix_append ..)
    have hu0 : n.find (u ++ []) = none := by
      rw [List.append_nil]
      apply below_not
      rw [h2]
      intro hh
      have := hh.length_le
      rw [List.length_append, List.length_cons] at this
      omega
    have hub : ∀ d t, d ≠ b → n.find (u ++ d :: t) = none := by
      intro d t hdb
      apply below_not
      rw [h2, List.prefix_append_right_inj]
      intro hh
      rw [List.cons_prefix_cons] at hh
      exact hdb hh.1.symm
    cases x with
    | nil =>
      refine key _ rfl fun t => ?_
      cases t with
      | nil => simp [Node.get]
      | cons d t =>
        rw [Node.get, get_cons, hold, if_neg (c := d :: t = []) (by simp)]
        split
        · rfl
        · rename_i hdb
          rw [hub d t hdb]
          rfl
    | cons c x =>
      have hcb : c ≠ b := h4 c x b y rfl rfl
      refine key _ rfl fun t => ?_
      cases t with
      | nil => rw [hu0, if_neg (by simp)]; rfl
      | cons d t =>
        rw [Node.get, add_one _ _ _ _ _ _ hcb, single_below, hold]
        by_cases hdc : d = c
        · subst hdc
          rw [if_pos rfl, hub d t hcb]
        · rw [if_neg hdc, if_neg (c := d :: t = c :: x) (by simp [hdc])]
          split
          · rfl
          · rename_i hdb
            rw [hub d t hdb]

theorem insert_pfx (v : V) (n : Node V) (k : Str) : (n.insert v k).pfx = n.pfx := by
  cases n with
  | mk l p es => cases k <;> rw [Node.insert] <;> rfl

mutual
theorem insert_get (v : V) : ∀ (n : Node V), n.Ok → ∀ k k', (n.insert v k).get k' = if k' = k then some v else n.get k'
  | .mk l p es, h, [], k' => by
    rw [Node.insert]
    cases k' with
    | nil => rw [if_pos rfl]; rfl
    | cons c s => rw [if_neg (by simp)]; rfl
  | .mk l p es, h, c :: s, k' => by
    rw [Node.insert]
    cases k' with
    | nil => rw [if_neg (by simp)]; rfl
    | cons c' s' =>
      rw [Node.get, Node.get]
      exact insertE_get v es (by rwa [Node.Ok] at h) c s c' s'
theorem insertE_get (v : V) : ∀ (es : Edges V), es.Ok → ∀ c s c' s', (es.insert v c (c :: s)).get c' (c' :: s') =
    if c' :: s' = c :: s then some v else es.get c' (c' :: s')
  | .nil, _, c, s, c', s' => by
    rw [Edges.insert, get_cons, single_below]
    split
    · rfl
    · rename_i h
      rw [if_neg (by simp [h])]
  | .cons l n rest, h, c, s, c', s' => by
    rw [Edges.Ok] at h
    obtain ⟨⟨q, hq⟩, h1, h2, h3⟩ := h
    rw [Edges.insert]
    by_cases hlt : c < l
    · rw [if_pos hlt, get_cons]
      by_cases hc : c' = c
      · subst hc
        have hne : c' ≠ l := by rintro rfl; exact absurd hlt (UInt8.lt_irrefl _)
        rw [if_pos rfl, single_below, get_cons, if_neg hne, get_absent rest _ (lt_absent h3 (UInt8.le_of_lt hlt))]
      · rw [if_neg hc, if_neg (by simp [hc])]
    · rw [if_neg hlt]
      by_cases hcl : c = l
      · subst hcl
        rw [if_pos rfl, get_cons, get_cons]
        by_cases hc : c' = c
        · subst hc
          rw [if_pos rfl, if_pos rfl]
          split
          · rename_i hcom
            obtain ⟨t, ht⟩ := common_full hcom
            rw [ht, List.drop_left]
            by_cases hp : n.pfx <+: c' :: s'
            · obtain ⟨t', ht'⟩ := hp
              rw [← ht']
              have := below_append (n.insert v t) t'
              rw [insert_pfx] at this
              rw [this, below_append, insert_get v n h1 t t']
              simp only [List.append_cancel_left_eq]
            · rw [below_not _ (by rw [insert_pfx]; exact hp), below_not _ hp, if_neg]
              intro e
              exact hp (by rw [e]; exact List.prefix_append ..)
          · rename_i hcom
            exact split_below n _ v hcom _
        · rw [if_neg hc, if_neg hc, if_neg (by simp [hc])]
      · rw [if_neg hcl, get_cons, get_cons]
        by_cases hc : c' = l
        · subst hc
          rw [if_pos rfl, if_pos rfl, if_neg (by simp [Ne.symm hcl])]
        · rw [if_neg hc, if_neg hc]
          exact insertE_get v rest h2 c s c' s'
end

theorem under_ok (n : Node V) (p : Str) (h : n.Ok) : (n.under p).Ok := by
  cases n; exact h

theorem under_pfx (n : Node V) (p : Str) : (n.under p).pfx = p := by
  cases n; rfl

theorem add_labels (c : UInt8) (n : Node V) : ∀ (es : Edges V) (x : UInt8), x ∈ (es.add c n).labels → x = c ∨ x ∈ es.labels
  | .nil, x, h => by
    rw [Edges.add, Edges.labels] at h
    rcases List.mem_cons.1 h with h | h
    · exact .inl h
    · cases h
  | .cons l m rest, x, h => by
    rw [Edges.add] at h
    split at h
    · rw [Edges.labels] at h
      exact List.mem_cons.1 h
    · rw [Edges.labels] at h ⊢
      rcases List.mem_cons.1 h with h | h
      · exact .inr (List.mem_cons.2 (.inl h))
      · rcases add_labels c n rest x h with h | h
        · exact .inl h
        · exact .inr (List.mem_cons_of_mem _ h)

theorem single_ok (p : Str) (v : V) : (single p v).Ok := by
  rw [single, Node.Ok, Edges.Ok]; trivial

theorem u8_lt {a b : UInt8} (h1 : ¬ a < b) (h2 : a ≠ b) : b < a := by
  rw [UInt8.lt_iff_toNat_lt] at h1 ⊢
  have : a.toNat ≠ b.toNat := fun h => h2 (UInt8.toNat_inj.1 h)
  omega

theorem split_ok (n : Node V) (search : Str) (v : V) (h : common search n.pfx ≠ n.pfx.length) (hn : n.Ok) :
    (split n (common search n.pfx) search v).Ok ∧ (split n (common search n.pfx) search v).pfx = search.take (common search n.pfx) := by
  obtain ⟨u, x, y, h1, h2, h3, h4⟩ := common_spec search n.pfx
  have hd : n.pfx.drop (common search n.pfx) = y := by rw [← h3]; conv => lhs; rw [h2]
                                                       exact List.drop_left
  have hs : search.drop (common search n.pfx) = x := by rw [← h3]; conv => lhs; rw [h1]
                                                        exact List.drop_left
  unfold split
  simp only [hd, hs]
  cases y with
  | nil =>
    exfalso
    rw [List.append_nil] at h2
    rw [h2] at h
    rw [h2] at h3
    exact h h3.symm
  | cons b y =>
    have ho : (n.under (b :: y)).Ok := under_ok n _ hn
    have hone : (Edges.cons b (n.under (b :: y)) .nil).Ok := by
      rw [Edges.Ok]
      exact ⟨⟨y, under_pfx ..⟩, ho, by rw [Edges.Ok]; trivial, fun _ h => by cases h⟩
    cases x with
    | nil => exact ⟨by rw [Node.Ok]; exact hone, rfl⟩
    | cons c x =>
      refine ⟨?_, rfl⟩
      have hcb : c ≠ b := h4 c x b y rfl rfl
      have hsg : (Edges.cons c (single (c :: x) v) .nil).Ok := by
        rw [Edges.Ok]
        exact ⟨⟨x, rfl⟩, single_ok .., by rw [Edges.Ok]; trivial, fun _ h => by cases h⟩
      simp only [Node.Ok, Edges.add]
      split
      · rename_i hlt
        rw [Edges.Ok]
        refine ⟨⟨x, rfl⟩, single_ok .., hone, ?_⟩
        intro z hz
        simp [Edges.labels] at hz
        rw [hz]; exact hlt
      · rename_i hlt
        rw [Edges.Ok]
        refine ⟨⟨y, under_pfx ..⟩, ho, hsg, ?_⟩
        intro z hz
        simp [Edges.labels] at hz
        rw [hz]
        exact u8_lt hlt hcb

mutual
theorem insert_ok (v : V) : ∀ (n : Node V), n.Ok → ∀ k, (n.insert v k).Ok
  | .mk l p es, h, [] => by rw [Node.insert]; exact h
  | .mk l p es, h, c :: s => by
    rw [Node.insert, Node.Ok]
    exact (insertE_ok v es (by rwa [Node.Ok] at h) c s).1
theorem insertE_ok (v : V) : ∀ (es : Edges V), es.Ok → ∀ c s, (es.insert v c (c :: s)).Ok ∧ ∀ x ∈ (es.insert v c (c :: s)).labels, x = c ∨ x ∈ es.labels
  | .nil, _, c, s => by
    rw [Edges.insert]
    refine ⟨?_, ?_⟩
    · rw [Edges.Ok]
      exact ⟨⟨s, rfl⟩, single_ok .., by rw [Edges.Ok]; trivial, fun _ h => by cases h⟩
    · intro x hx
      simp [Edges.labels] at hx
      exact .inl hx
  | .cons l n rest, h, c, s => by
    have h' := h
    rw [Edges.Ok] at h
    obtain ⟨⟨q, hq⟩, h1, h2, h3⟩ := h
    rw [Edges.insert]
    by_cases hlt : c < l
    · rw [if_pos hlt]
      refine ⟨?_, ?_⟩
      · rw [Edges.Ok]
        refine ⟨⟨s, rfl⟩, single_ok .., h', ?_⟩
        intro x hx
        rw [Edges.labels] at hx
        rcases List.mem_cons.1 hx with rfl | hx
        · exact hlt
        · exact UInt8.lt_trans hlt (h3 x hx)
      · intro x hx
        rw [Edges.labels] at hx
        exact List.mem_cons.1 hx
    · rw [if_neg hlt]
      by_cases hcl : c = l
      · subst hcl
        rw [if_pos rfl]
        refine ⟨?_, ?_⟩
        · rw [Edges.Ok]
          split
          · exact ⟨⟨q, by rw [insert_pfx]; exact hq⟩, insert_ok v n h1 _, h2, h3⟩
          · rename_i hcom
            obtain ⟨g1, g2⟩ := split_ok n (c :: s) v hcom h1
            refine ⟨?_, g1, h2, h3⟩
            rw [g2, hq]
            refine ⟨s.take (common s q), ?_⟩
            simp [common]
        · intro x hx
          rw [Edges.labels] at hx ⊢
          exact .inr hx
      · rw [if_neg hcl]
        obtain ⟨g1, g2⟩ := insertE_ok v rest h2 c s
        refine ⟨?_, ?_⟩
        · rw [Edges.Ok]
          refine ⟨⟨q, hq⟩, h1, g1, ?_⟩
          intro x hx
          rcases g2 x hx with rfl | hx
          · exact u8_lt hlt hcl
          · exact h3 x hx
        · intro x hx
          rw [Edges.labels] at hx ⊢
          rcases List.mem_cons.1 hx with rfl | hx
          · exact .inr (List.mem_cons_self ..)
          · rcases g2 x hx with h | h
            · exact .inl h
            · exact .inr (List.mem_cons_of_mem _ h)
end

end Wamp.Radix
