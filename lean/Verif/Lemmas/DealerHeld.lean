import Verif.Lemmas.DealerRemove
/-!
# The registration of one procedure, if nobody unregisters what it does not hold
-/
namespace Wamp.Dealer

theorem members_def (h : List Event) (p : Str) {r : RegView} (hr : regOf h p = some r) : members h p = r.members := by
  simp [members, hr]

/-- The registration of `p` is what the history says (`callees` excepted). -/
structure HInv (p : Str) (h : List Event) (b : State) : Prop where
  live : ∀ a, b.byProc p = some a → ∃ r, regOf h p = some r ∧ r.id = (b.heap a).id ∧ r.policy = (b.heap a).policy ∧
    normMatch r.mtch = (b.heap a).mtch ∧ (∀ s, s ∈ (b.heap a).registrants ↔ s ∈ r.members) ∧ (b.heap a).registrants ≠ []
  dead : b.byProc p = none → regOf h p = none
  held : ∀ a s, b.byProc p = some a → s ∈ (b.heap a).registrants → ∃ m, b.bySession s = some m ∧ m.get (b.heap a).id = some a
  gone : ∀ a < b.next, (b.heap a).procedure = p → b.byProc p = some a ∨ (b.heap a).registrants = []
  tre : (∃ a, b.tree.get p = some a) ↔ everPrefix h p
  tlive : ∀ a, b.byProc p = some a → (b.heap a).mtch = matchPrefix → b.tree.get p = some a
  tmt : ∀ a, b.tree.get p = some a → (b.heap a).mtch = matchPrefix
  wl : ∀ a, b.wc.get p = some a → b.byProc p = some a ∧ (b.heap a).mtch = matchWildcard

variable {p : Str}

theorem init_hinv : HInv p [] init := by
  refine ⟨?_, ?_, ?_, ?_, ?_, ?_, ?_, ?_⟩ <;> simp [init, AMap.get, FMap.empty, regOf, everPrefix]

/-- Calls that do not concern `p`. -/
theorem HInv.quiet {h : List Event} {b b' : State} (hR : RInv h b) (hi : HInv p h b) {e : Event} (hr : regOf (e :: h) p = regOf h p)
    (he : everPrefix (e :: h) p ↔ everPrefix h p)
    (ho : ∀ a < b.next, (b.heap a).procedure = p → (b'.heap a).id = (b.heap a).id ∧ (b'.heap a).procedure = (b.heap a).procedure ∧
      (b'.heap a).policy = (b.heap a).policy ∧ (b'.heap a).mtch = (b.heap a).mtch ∧ (b'.heap a).registrants = (b.heap a).registrants)
    (h1 : b'.byProc p = b.byProc p) (h2 : b'.tree.get p = b.tree.get p) (h3 : b'.wc.get p = b.wc.get p)
    (h4 : ∀ a < b'.next, (b'.heap a).procedure = p → a < b.next ∧ (b.heap a).procedure = p)
    (h5 : ∀ s m i a, b.bySession s = some m → m.get i = some a → a < b.next → (b.heap a).procedure = p →
      ∃ m', b'.bySession s = some m' ∧ m'.get i = some a) : HInv p (e :: h) b' := by
  have hob : ∀ a, b.byProc p = some a → _ := fun a k => ho a (hR.byp p a k).1 (hR.byp p a k).2
  refine ⟨?_, ?_, ?_, ?_, ?_, ?_, ?_, ?_⟩
  · intro a hp
    rw [h1] at hp
    rw [hr, (hob a hp).1, (hob a hp).2.2.1, (hob a hp).2.2.2.1, (hob a hp).2.2.2.2]
    exact hi.live a hp
  · intro hp
    rw [h1] at hp
    rw [hr]
    exact hi.dead hp
  · intro a s hp hs
    rw [h1] at hp
    rw [(hob a hp).2.2.2.2] at hs
    rw [(hob a hp).1]
    obtain ⟨m, k1, k2⟩ := hi.held a s hp hs
    exact h5 s m _ a k1 k2 (hR.byp p a hp).1 (hR.byp p a hp).2
  · intro a ha hpr
    obtain ⟨k1, k2⟩ := h4 a ha hpr
    rw [h1, (ho a k1 k2).2.2.2.2]
    exact hi.gone a k1 k2
  · rw [h2, he]; exact hi.tre
  · intro a hp hm
    rw [h1] at hp
    rw [(hob a hp).2.2.2.1] at hm
    rw [h2]
    exact hi.tlive a hp hm
  · intro a hp
    rw [h2] at hp
    rw [(ho a (hR.trp p a hp).1 (hR.trp p a hp).2).2.2.2.1]
    exact hi.tmt a hp
  · intro a hp
    rw [h3] at hp
    rw [(ho a (hR.wcp p a hp).1 (hR.wcp p a hp).2).2.2.2.1, h1]
    exact hi.wl a hp

theorem HInv.same {h : List Event} {b : State} (hR : RInv h b) (hi : HInv p h b) {e : Event} (hr : regOf (e :: h) p = regOf h p)
    (he : everPrefix (e :: h) p ↔ everPrefix h p) : HInv p (e :: h) b :=
  hi.quiet hR hr he (fun _ _ _ => ⟨rfl, rfl, rfl, rfl, rfl⟩) rfl rfl rfl (fun _ h1 h2 => ⟨h1, h2⟩) fun _ m _ _ h1 h2 _ _ => ⟨m, h1, h2⟩

theorem HInv.join {h : List Event} {b : State} (hR : RInv h b) (hi : HInv p h b) {s q : Nat} {o : GoMap} {p0 : Str} {a : Nat} {m : AMap Nat Nat}
    (hm : b.bySession s = some m) (ha : b.byProc p0 = some a) (order : List Str) (rnd q' s' : Nat) :
    HInv p (⟨.receive s (.register q o p0) order rnd, .ok (.msg (.registered q' (b.heap a).id) s')⟩ :: h) { b with
      heap := hset b.heap a { b.heap a with
        registrants := if (b.heap a).registrants.contains s then (b.heap a).registrants else (b.heap a).registrants ++ [s]
        callees := (b.heap a).callees ++ [s] }
      bySession := b.bySession.set s (m.set (b.heap a).id a) } := by
  have hreg : ∀ x, x ∈ (if (b.heap a).registrants.contains s then (b.heap a).registrants else (b.heap a).registrants ++ [s]) ↔
      x ∈ (b.heap a).registrants ∨ x = s := by
    intro x
    split
    · rename_i hc
      constructor
      · exact .inl
      · rintro (h | rfl)
        · exact h
        · simpa using hc
    · simp
  obtain ⟨ha1, ha2⟩ := hR.byp p0 a ha
  generalize hnewreg : (if (b.heap a).registrants.contains s then (b.heap a).registrants else (b.heap a).registrants ++ [s]) = nr at hreg ⊢
  have heap2 : ∀ x, x ≠ a → hset b.heap a { b.heap a with registrants := nr, callees := (b.heap a).callees ++ [s] } x = b.heap x := by
    intro x hx; simp only [hset]; rw [if_neg hx]
  have hHa : hset b.heap a { b.heap a with registrants := nr, callees := (b.heap a).callees ++ [s] } a =
      { b.heap a with registrants := nr, callees := (b.heap a).callees ++ [s] } := by simp [hset]
  generalize hset b.heap a { b.heap a with registrants := nr, callees := (b.heap a).callees ++ [s] } = H at heap2 hHa ⊢
  have hpr : ∀ x, (H x).procedure = (b.heap x).procedure := by
    intro x
    by_cases hx : x = a
    · subst hx; rw [hHa]
    · rw [heap2 x hx]
  by_cases hpp : p0 = p
  · subst hpp
    obtain ⟨r, hr0, hr1, hr2, hr3, hr4, hr5⟩ := hi.live a ha
    have hmt : ∀ x, (H x).mtch = (b.heap x).mtch := by
      intro x
      by_cases hx : x = a
      · subst hx; rw [hHa]
      · rw [heap2 x hx]
    refine ⟨?_, ?_, ?_, ?_, ?_, ?_, ?_, ?_⟩
    · intro a' hp'
      simp only at hp'
      rw [ha] at hp'
      cases hp'
      refine ⟨{ r with members := r.members ++ [s] }, by simp [regOf, hr0], ?_⟩
      simp only [hHa]
      refine ⟨hr1, hr2, hr3, ?_, ?_⟩
      · intro x; rw [hreg, hr4]; simp
      · intro e
        have : s ∈ ([] : List Nat) := by rw [← e, hreg]; exact .inr rfl
        cases this
    · intro hp'
      simp only at hp'
      rw [ha] at hp'; cases hp'
    · intro a' x hp' hx
      simp only at hp' hx ⊢
      rw [ha] at hp'
      cases hp'
      simp only [hHa] at hx ⊢
      rw [hreg] at hx
      by_cases hxs : x = s
      · subst hxs
        exact ⟨_, FMap.set_same .., by rw [AMap.get_set, if_pos rfl]⟩
      · rcases hx with hx | hx
        · obtain ⟨m', k1, k2⟩ := hi.held a x ha hx
          exact ⟨m', by rw [FMap.set_other _ _ hxs]; exact k1, k2⟩
        · exact absurd hx hxs
    · intro a' ha' hpr'
      simp only [hpr] at ha' hpr' ⊢
      by_cases haa : a' = a
      · subst haa; exact .inl ha
      · rw [heap2 a' haa]
        exact hi.gone a' ha' hpr'
    · simp only [everPrefix, hi.tre]
      constructor
      · exact .inr
      · rintro (⟨-, h2, -⟩ | h1)
        · rw [hr0] at h2; cases h2
        · exact h1
    · intro a' hp' hmt'
      simp only [hmt] at hp' hmt' ⊢
      exact hi.tlive a' hp' hmt'
    · intro a' hp'
      simp only [hmt]
      exact hi.tmt a' hp'
    · intro a' hp'
      simp only [hmt]
      exact hi.wl a' hp'
  · refine hi.quiet hR (by simp [regOf, hpp]) ?_ ?_ rfl rfl rfl ?_ ?_
    · simp only [everPrefix, hpp, false_and, false_or]
    · intro x hx hx2
      simp only
      rw [heap2 x (fun e => hpp (ha2.symm.trans (e ▸ hx2)))]
      exact ⟨rfl, rfl, rfl, rfl, rfl⟩
    · intro x hx hx2
      simp only [hpr] at hx hx2
      exact ⟨hx, hx2⟩
    · intro x m' i a' h1 h2 h3 h4
      simp only [FMap.set_apply]
      split
      · rename_i e
        subst e
        rw [hm] at h1
        cases h1
        refine ⟨_, rfl, ?_⟩
        rw [AMap.get_set, if_neg, h2]
        intro e
        have hid := (hR.sesp x m i a' hm h2).2
        have := hR.inj a' h3 a ha1 (by rw [hid, e])
        subst this
        exact hpp (ha2.symm.trans h4)
      · exact ⟨m', h1, h2⟩

theorem HInv.create {h : List Event} {b : State} (hR : RInv h b) (hi : HInv p h b) {s q i : Nat} {o : GoMap} {p0 : Str} {m : AMap Nat Nat}
    (hm : b.bySession s = some m) (hp : b.byProc p0 = none) (hid : b.idGen < i) (g : Nat) (order : List Str) (rnd q' s' : Nat) :
    HInv p (⟨.receive s (.register q o p0) order rnd, .ok (.msg (.registered q' i) s')⟩ :: h) { b with
      heap := hset b.heap b.next ⟨i, p0, [s], o.text optInvoke, 0, [s], normMatch (o.text optMatch)⟩
      next := b.next + 1
      idGen := g
      tree := if normMatch (o.text optMatch) = matchPrefix then b.tree.set p0 b.next else b.tree
      wc := if normMatch (o.text optMatch) = matchWildcard then b.wc.set p0 b.next else b.wc
      byProc := b.byProc.set p0 b.next
      bySession := b.bySession.set s (m.set i b.next) } := by
  have heap2 : ∀ x, x < b.next → hset b.heap b.next ⟨i, p0, [s], o.text optInvoke, 0, [s], normMatch (o.text optMatch)⟩ x = b.heap x := by
    intro x hx; simp only [hset]; rw [if_neg (by omega)]
  have hHa : hset b.heap b.next ⟨i, p0, [s], o.text optInvoke, 0, [s], normMatch (o.text optMatch)⟩ b.next =
      ⟨i, p0, [s], o.text optInvoke, 0, [s], normMatch (o.text optMatch)⟩ := by simp [hset]
  generalize hset b.heap b.next ⟨i, p0, [s], o.text optInvoke, 0, [s], normMatch (o.text optMatch)⟩ = H at heap2 hHa ⊢
  by_cases hpp : p0 = p
  · subst hpp
    have hnone := hi.dead hp
    have hnm : normMatch (o.text optMatch) = matchPrefix ↔ o.text (str "match") = str "prefix" := normMatch_prefix _
    refine ⟨?_, ?_, ?_, ?_, ?_, ?_, ?_, ?_⟩
    · intro a' hp'
      simp only [FMap.set_same] at hp'
      cases hp'
      refine ⟨⟨i, o.text (str "invoke"), o.text (str "match"), [s]⟩, by simp [regOf, hnone], ?_⟩
      simp only [hHa]
      exact ⟨trivial, rfl, rfl, by simp, by simp⟩
    · intro hp'
      simp only [FMap.set_same] at hp'
      cases hp'
    · intro a' x hp' hx
      simp only [FMap.set_same] at hp' hx ⊢
      cases hp'
      simp only [hHa, List.mem_singleton] at hx ⊢
      subst hx
      exact ⟨_, FMap.set_same .., by rw [AMap.get_set, if_pos rfl]⟩
    · intro a' ha' hpr
      simp only [FMap.set_same] at ha' hpr ⊢
      by_cases haa : a' = b.next
      · subst haa; exact .inl rfl
      · rw [heap2 a' (by omega)] at hpr ⊢
        rcases hi.gone a' (by omega) hpr with k | k
        · rw [hp] at k; cases k
        · exact .inr k
    · have hev : everPrefix (⟨.receive s (.register q o p0) order rnd, .ok (.msg (.registered q' i) s')⟩ :: h) p0 ↔
          (p0 = p0 ∧ regOf h p0 = none ∧ o.text (str "match") = str "prefix") ∨ everPrefix h p0 := Iff.rfl
      rw [hev, ← hnm, ← hi.tre]
      simp only
      split
      · rename_i hc
        rw [AMap.get_set, if_pos rfl]
        simp only [Option.some.injEq, exists_eq', true_iff]
        exact .inl ⟨trivial, hnone, hc⟩
      · rename_i hc
        constructor
        · exact .inr
        · rintro (⟨-, -, h⟩ | h)
          · exact absurd h hc
          · exact h
    · intro a' hp' hmt
      simp only [FMap.set_same] at hp' hmt ⊢
      cases hp'
      rw [hHa] at hmt
      simp only at hmt
      rw [if_pos hmt, AMap.get_set, if_pos rfl]
    · intro a' hp'
      simp only at hp' ⊢
      split at hp'
      · rename_i hc
        rw [AMap.get_set, if_pos rfl] at hp'
        cases hp'
        rw [hHa]
        exact hc
      · rw [heap2 a' (hR.trp p0 a' hp').1]
        exact hi.tmt a' hp'
    · intro a' hp'
      simp only [FMap.set_same] at hp' ⊢
      split at hp'
      · rename_i hc
        rw [AMap.get_set, if_pos rfl] at hp'
        cases hp'
        rw [hHa]
        exact ⟨rfl, hc⟩
      · have := (hi.wl a' hp').1
        rw [hp] at this
        cases this
  · have hpp' : p ≠ p0 := Ne.symm hpp
    refine hi.quiet hR (by simp [regOf, hpp]) ?_ ?_ ?_ ?_ ?_ ?_ ?_
    · simp only [everPrefix, hpp, false_and, false_or]
    · intro x hx _
      simp only
      rw [heap2 x hx]
      exact ⟨rfl, rfl, rfl, rfl, rfl⟩
    · simp only [FMap.set_apply, if_neg hpp']
    · simp only
      split
      · rw [AMap.get_set, if_neg hpp']
      · rfl
    · simp only
      split
      · rw [AMap.get_set, if_neg hpp']
      · rfl
    · intro x hx hx2
      simp only at hx hx2
      by_cases hxn : x = b.next
      · subst hxn
        rw [hHa] at hx2
        exact absurd hx2 hpp
      · have hlt : x < b.next := by omega
        rw [heap2 x hlt] at hx2
        exact ⟨hlt, hx2⟩
    · intro x m' j a' h1 h2 h3 h4
      simp only [FMap.set_apply]
      split
      · rename_i e
        subst e
        rw [hm] at h1
        cases h1
        refine ⟨_, rfl, ?_⟩
        rw [AMap.get_set, if_neg, h2]
        have := (hR.obj a' h3).2
        have hid' := (hR.sesp x m j a' hm h2).2
        omega
      · exact ⟨m', h1, h2⟩

theorem filter_nil_iff {l l' : List Nat} {s : Nat} (h : ∀ x, x ∈ l ↔ x ∈ l') : l.filter (· ≠ s) = [] ↔ l'.filter (· ≠ s) = [] := by
  simp only [List.filter_eq_nil_iff]
  exact ⟨fun k x hx => k x ((h x).2 hx), fun k x hx => k x ((h x).1 hx)⟩

/-- The registration that a session unregisters is the live one. -/
theorem HInv.own {h : List Event} {b : State} (hR : RInv h b) (hi : HInv p h b) {s i a : Nat} {m : AMap Nat Nat}
    (hm : b.bySession s = some m) (hg : m.get i = some a) {r : RegView} (hr : regOf h p = some r) (hid : r.id = i) :
    b.byProc p = some a := by
  cases hp : b.byProc p with
  | none => rw [hi.dead hp] at hr; cases hr
  | some a' =>
    obtain ⟨r', k0, k1, -⟩ := hi.live a' hp
    rw [hr] at k0
    cases k0
    obtain ⟨l1, l2⟩ := hR.sesp s m i a hm hg
    rw [hR.inj a' (hR.byp p a' hp).1 a l1 (by rw [l2, ← k1, hid])]

/-- UNREGISTER of another procedure's registration. -/
theorem unreg_other {h : List Event} {b : State} (hR : RInv h b) (hi : HInv p h b) {s q i a : Nat} {m : AMap Nat Nat}
    (hm : b.bySession s = some m) (hg : m.get i = some a) (hpa : (b.heap a).procedure ≠ p) (order : List Str) (rnd : Nat) (x : Out) :
    regOf (⟨.receive s (.unregister q i) order rnd, .ok x⟩ :: h) p = regOf h p := by
  have hreg : regOf (⟨.receive s (.unregister q i) order rnd, .ok x⟩ :: h) p =
      (regOf h p).bind fun r => if r.id = i then leave s r else some r := rfl
  rw [hreg]
  cases hr' : regOf h p with
  | none => rfl
  | some r' =>
    simp only [Option.bind_some]
    rw [if_neg]
    intro e
    exact hpa (hR.byp p a (hi.own hR hm hg hr' e)).2

theorem HInv.unreg {h : List Event} {b : State} (hR : RInv h b) (hi : HInv p h b) {s q i : Nat}
    (hh : idOf h p i → ∃ r, regOf h p = some r ∧ r.id = i ∧ s ∈ r.members)
    (hnp : (unregister b s q i).2 ≠ .panic) (hne : (unregister b s q i).2 ≠ .err) (order : List Str) (rnd : Nat) (x : Out) :
    HInv p (⟨.receive s (.unregister q i) order rnd, .ok x⟩ :: h) (unregister b s q i).1 := by
  have hreg : regOf (⟨.receive s (.unregister q i) order rnd, .ok x⟩ :: h) p =
      (regOf h p).bind fun r => if r.id = i then leave s r else some r := rfl
  have hev : everPrefix (⟨.receive s (.unregister q i) order rnd, .ok x⟩ :: h) p ↔ everPrefix h p := Iff.rfl
  simp only [unregister] at hnp hne ⊢
  cases hm : b.bySession s with
  | none => rw [hm] at hne; exact absurd rfl hne
  | some m =>
    rw [hm] at hnp hne
    simp only at hnp hne ⊢
    split
    · rename_i hemp; rw [if_pos hemp] at hne; exact absurd rfl hne
    · rename_i hemp
      rw [if_neg hemp] at hnp hne
      cases hg : m.get i with
      | none => rw [hg] at hnp; exact absurd rfl hnp
      | some a =>
        simp only
        obtain ⟨ha1, ha2⟩ := hR.sesp s m i a hm hg
        have heap2 : ∀ y, y ≠ a → hset b.heap a { b.heap a with registrants := (b.heap a).registrants.filter (· ≠ s) } y = b.heap y := by
          intro y hy; simp only [hset]; rw [if_neg hy]
        have hHa : hset b.heap a { b.heap a with registrants := (b.heap a).registrants.filter (· ≠ s) } a =
            { b.heap a with registrants := (b.heap a).registrants.filter (· ≠ s) } := by simp [hset]
        generalize hset b.heap a { b.heap a with registrants := (b.heap a).registrants.filter (· ≠ s) } = H at heap2 hHa ⊢
        have hmt : ∀ y, (H y).mtch = (b.heap y).mtch := by
          intro y
          by_cases hy : y = a
          · subst hy; rw [hHa]
          · rw [heap2 y hy]
        have hpr : ∀ y, (H y).procedure = (b.heap y).procedure := by
          intro y
          by_cases hy : y = a
          · subst hy; rw [hHa]
          · rw [heap2 y hy]
        by_cases hproc : (b.heap a).procedure = p
        · obtain ⟨r, hr0, hrid, hmem⟩ := hh (by rw [← hproc, ← ha2]; exact hR.born a ha1)
          have ha := hi.own hR hm hg hr0 hrid
          obtain ⟨r', k0, k1, k2, k3, k4, k5⟩ := hi.live a ha
          rw [hr0] at k0
          cases k0
          have hself : regOf (⟨.receive s (.unregister q i) order rnd, .ok x⟩ :: h) p = leave s r := by
            rw [hreg, hr0, Option.bind_some, if_pos hrid]
          split
          · rename_i hemp'
            have hemp' : (b.heap a).registrants.filter (· ≠ s) = [] := List.isEmpty_iff.1 hemp'
            have hleave : leave s r = none := by
              rw [leave, if_pos ((filter_nil_iff k4).1 hemp')]
            refine ⟨?_, ?_, ?_, ?_, ?_, ?_, ?_, ?_⟩
            · intro a' hp'
              simp only [hproc, FMap.del_same] at hp'
              cases hp'
            · intro hp'
              rw [hself, hleave]
            · intro a' y hp' hy
              simp only [hproc, FMap.del_same] at hp'
              cases hp'
            · intro a' ha' hpr'
              simp only [hpr] at ha' hpr' ⊢
              by_cases haa : a' = a
              · subst haa
                right
                rw [hHa]
                exact hemp'
              · rw [heap2 a' haa]
                rcases hi.gone a' ha' hpr' with l | l
                · rw [ha] at l; cases l; exact absurd rfl haa
                · exact .inr l
            · rw [hev]; exact hi.tre
            · intro a' hp' hmt'
              simp only [hproc, FMap.del_same] at hp'
              cases hp'
            · intro a' hp'
              simp only [hmt]
              exact hi.tmt a' hp'
            · intro a' hp'
              simp only [hmt, hproc] at hp'
              split at hp'
              · rw [AMap.get_del, if_pos rfl] at hp'
                cases hp'
              · rename_i hnw
                obtain ⟨l1, l2⟩ := hi.wl a' hp'
                rw [ha] at l1
                cases l1
                exact absurd l2 hnw
          · rename_i hemp'
            have hemp' : (b.heap a).registrants.filter (· ≠ s) ≠ [] := fun e => hemp' (List.isEmpty_iff.2 e)
            have hleave : leave s r = some { r with members := r.members.filter (· ≠ s) } := by
              rw [leave, if_neg (fun e => hemp' ((filter_nil_iff k4).2 e))]
            refine ⟨?_, ?_, ?_, ?_, ?_, ?_, ?_, ?_⟩
            · intro a' hp'
              simp only at hp' ⊢
              rw [ha] at hp'
              cases hp'
              rw [hself, hleave]
              refine ⟨_, rfl, ?_⟩
              simp only [hHa]
              refine ⟨k1, k2, k3, ?_, hemp'⟩
              intro y
              simp only [List.mem_filter, k4]
            · intro hp'
              simp only at hp'
              rw [ha] at hp'; cases hp'
            · intro a' y hp' hy
              simp only at hp' hy ⊢
              rw [ha] at hp'
              cases hp'
              simp only [hHa] at hy ⊢
              exact hi.held a y ha (List.mem_filter.1 hy).1
            · intro a' ha' hpr'
              simp only [hpr] at ha' hpr' ⊢
              by_cases haa : a' = a
              · subst haa; exact .inl ha
              · rw [heap2 a' haa]
                exact hi.gone a' ha' hpr'
            · rw [hev]; exact hi.tre
            · intro a' hp' hmt'
              simp only [hmt] at hp' hmt' ⊢
              exact hi.tlive a' hp' hmt'
            · intro a' hp'
              simp only [hmt]
              exact hi.tmt a' hp'
            · intro a' hp'
              simp only [hmt]
              exact hi.wl a' hp'
        · have hpp : p ≠ (b.heap a).procedure := Ne.symm hproc
          have hob : ∀ y, (b.heap y).procedure = p → (H y).id = (b.heap y).id ∧ (H y).procedure = (b.heap y).procedure ∧
              (H y).policy = (b.heap y).policy ∧ (H y).mtch = (b.heap y).mtch ∧ (H y).registrants = (b.heap y).registrants := by
            intro y hy
            rw [heap2 y (fun e => hproc (e ▸ hy))]
            exact ⟨rfl, rfl, rfl, rfl, rfl⟩
          have hrg := unreg_other hR hi hm hg hproc order rnd x (q := q)
          split
          · refine hi.quiet hR hrg hev (fun y _ hy => hob y hy) ?_ rfl ?_ ?_ ?_
            · simp only [FMap.del_apply, if_neg hpp]
            · simp only
              split
              · rw [AMap.get_del, if_neg hpp]
              · rfl
            · intro y h1 h2
              simp only [hpr] at h1 h2
              exact ⟨h1, h2⟩
            · intro y m' j a' h1 h2 h3 h4
              simp only [FMap.set_apply]
              split
              · rename_i e
                subst e
                rw [hm] at h1
                cases h1
                refine ⟨_, rfl, ?_⟩
                rw [AMap.get_del, if_neg, h2]
                rintro rfl
                rw [hg] at h2
                cases h2
                exact hproc h4
              · exact ⟨m', h1, h2⟩
          · refine hi.quiet hR hrg hev (fun y _ hy => hob y hy) rfl rfl rfl ?_ ?_
            · intro y h1 h2
              simp only [hpr] at h1 h2
              exact ⟨h1, h2⟩
            · intro y m' j a' h1 h2 h3 h4
              exact ⟨m', h1, h2⟩

/-- `RemoveSession` as seen by a registration. -/
theorem remove_live {h : List Event} {b : State} (hR : RInv h b) (hi : HInv p h b) {s : Nat} {m : AMap Nat Nat}
    (hm : b.bySession s = some m) {T : List Str} (hT : ∀ p, p ∈ T ↔ ∃ i a, m.get i = some a ∧ (b.heap a).procedure = p)
    {b' : State} (g : Gone s T b b') :
    (∀ a, b.byProc p = some a → (b'.heap a).registrants = (b.heap a).registrants.filter (· ≠ s) ∧
      b'.byProc p = (if (b.heap a).registrants.filter (· ≠ s) = [] then none else some a)) ∧
    (b.byProc p = none → b'.byProc p = none) ∧
    (∀ a < b.next, (b.heap a).procedure = p → b.byProc p ≠ some a → b'.heap a = b.heap a) ∧
    (∀ a, b.byProc p = some a → s ∈ (b.heap a).registrants → p ∈ T) := by
  have hin : ∀ a, b.byProc p = some a → s ∈ (b.heap a).registrants → p ∈ T := by
    intro a hp hs
    obtain ⟨m', k1, k2⟩ := hi.held a s hp hs
    rw [hm] at k1
    cases k1
    exact (hT p).2 ⟨_, a, k2, (hR.byp p a hp).2⟩
  refine ⟨?_, ?_, ?_, hin⟩
  · intro a hp
    by_cases hpT : p ∈ T
    · exact ⟨(g.hit p a hpT hp).1, (g.hit p a hpT hp).2.1⟩
    · have hs : s ∉ (b.heap a).registrants := fun hs => hpT (hin a hp hs)
      have hf : (b.heap a).registrants.filter (· ≠ s) = (b.heap a).registrants := by
        rw [List.filter_eq_self]
        intro x hx
        simp only [decide_eq_true_eq]
        rintro rfl
        exact hs hx
      obtain ⟨r, -, -, -, -, -, hne⟩ := hi.live a hp
      rw [hf, if_neg hne, (g.miss p (.inl hpT)).1, g.other a]
      · exact ⟨rfl, hp⟩
      · intro p' h1 h2
        exact hpT ((hR.byp p' a h2).2.symm.trans (hR.byp p a hp).2 ▸ h1)
  · intro hp
    rw [(g.miss p (.inr hp)).1, hp]
  · intro a ha hpr hne
    refine g.other a fun p' h1 h2 => hne ?_
    rw [← hpr, (hR.byp p' a h2).2]
    exact h2

theorem HInv.removed {h : List Event} {b : State} (hR : RInv h b) (hi : HInv p h b) {s : Nat} {order : List Nat} {m : AMap Nat Nat}
    (hm : b.bySession s = some m) {T : List Str} (hT : ∀ p, p ∈ T ↔ ∃ i a, m.get i = some a ∧ (b.heap a).procedure = p)
    {b' : State} (g : Gone s T b b') (f : Frame b b') (hb : b'.bySession = b.bySession.del s) (x : Out) :
    HInv p (⟨.remove s order, .ok x⟩ :: h) b' := by
  obtain ⟨l1, l2, l3, l4⟩ := remove_live hR hi hm hT g
  have hreg : regOf (⟨.remove s order, .ok x⟩ :: h) p = (regOf h p).bind (leave s) := rfl
  have hev : everPrefix (⟨.remove s order, .ok x⟩ :: h) p ↔ everPrefix h p := Iff.rfl
  -- a registration that is still there was there before, with other members
  have back : ∀ a, b'.byProc p = some a → b.byProc p = some a ∧ (b.heap a).registrants.filter (· ≠ s) ≠ [] := by
    intro a hp
    cases hp0 : b.byProc p with
    | none => rw [l2 hp0] at hp; cases hp
    | some a0 =>
      rw [(l1 a0 hp0).2] at hp
      split at hp
      · cases hp
      · cases hp; exact ⟨rfl, by assumption⟩
  refine ⟨?_, ?_, ?_, ?_, ?_, ?_, ?_, ?_⟩
  · intro a hp
    obtain ⟨hp0, hne⟩ := back a hp
    obtain ⟨r, k0, k1, k2, k3, k4, k5⟩ := hi.live a hp0
    rw [hreg, k0, Option.bind_some, leave, if_neg (fun e => hne ((filter_nil_iff k4).2 e))]
    refine ⟨_, rfl, ?_⟩
    rw [(g.objs a).1, (g.objs a).2.2.1, (g.objs a).2.2.2.1, (l1 a hp0).1]
    refine ⟨k1, k2, k3, ?_, hne⟩
    intro y
    simp only [List.mem_filter, k4]
  · intro hp
    rw [hreg]
    cases hp0 : b.byProc p with
    | none => rw [hi.dead hp0]; rfl
    | some a0 =>
      rw [(l1 a0 hp0).2] at hp
      split at hp
      · rename_i he
        obtain ⟨r, k0, k1, k2, k3, k4, k5⟩ := hi.live a0 hp0
        rw [k0, Option.bind_some, leave, if_pos ((filter_nil_iff k4).1 he)]
      · cases hp
  · intro a y hp hy
    obtain ⟨hp0, hne⟩ := back a hp
    rw [(l1 a hp0).1] at hy
    rw [(g.objs a).1, hb]
    simp only [List.mem_filter, decide_eq_true_eq] at hy
    obtain ⟨m', k1, k2⟩ := hi.held a y hp0 hy.1
    exact ⟨m', by rw [FMap.del_other _ hy.2]; exact k1, k2⟩
  · intro a ha hpr
    rw [f.next] at ha
    rw [(g.objs a).2.1] at hpr
    rcases hi.gone a ha hpr with k | k
    · rw [(l1 a k).1, (l1 a k).2]
      split
      · rename_i e; exact .inr e
      · exact .inl rfl
    · by_cases hl : b.byProc p = some a
      · right; rw [(l1 a hl).1, k]; rfl
      · right; rw [l3 a ha hpr hl]; exact k
  · rw [hev, f.tree]; exact hi.tre
  · intro a hp hmt
    rw [(g.objs a).2.2.2.1] at hmt
    rw [f.tree]
    exact hi.tlive a (back a hp).1 hmt
  · intro a hp
    rw [f.tree] at hp
    rw [(g.objs a).2.2.2.1]
    exact hi.tmt a hp
  · intro a hp
    obtain ⟨k1, k2⟩ := hi.wl a (f.wcs p a hp)
    rw [(g.objs a).2.2.2.1]
    refine ⟨?_, k2⟩
    by_cases hpT : p ∈ T
    · rw [(g.hit p a hpT k1).2.2, if_pos k2] at hp
      cases hp
    · rw [(g.miss p (.inl hpT)).1]; exact k1

theorem Held.tail {e : Event} {h : List Event} (hh : Held p (e :: h)) : Held p h := by
  unfold Held at hh
  split at hh
  · simp_all
  · rename_i heq; cases heq; exact hh.2
  · rename_i heq; cases heq; exact hh

theorem step_hinv {w : Str → Str → Bool} {h : List Event} {b : State} (hS : SInv h b) (hR : RInv h b) (hi : HInv p h b) (hlen : h.length < maxID)
    (op : Op) (hnp : (step w b op).2 ≠ .panic) (hH : Held p (⟨op, (step w b op).2⟩ :: h)) :
    HInv p (⟨op, (step w b op).2⟩ :: h) (step w b op).1 := by
  have hg : nextID b.idGen = (b.idGen + 1, b.idGen + 1) := nextID_small (Nat.lt_of_le_of_lt hR.gen hlen)
  cases op with
  | add d =>
    simp only [step, addSession]
    split
    · exact hi.same hR rfl Iff.rfl
    · rename_i hno
      refine hi.quiet hR rfl Iff.rfl (fun _ _ _ => ⟨rfl, rfl, rfl, rfl, rfl⟩) rfl rfl rfl (fun _ h1 h2 => ⟨h1, h2⟩) ?_
      intro s m i a hs hg _ _
      simp only [FMap.set_apply]
      rw [if_neg]
      · exact ⟨m, hs, hg⟩
      · rintro rfl
        have := hS.bys d.id
        rw [hs, ← hS.sess] at this
        exact hno this.symm
  | has p => exact hi.same hR rfl Iff.rfl
  | disclose on =>
    exact hi.quiet hR rfl Iff.rfl (fun _ _ _ => ⟨rfl, rfl, rfl, rfl, rfl⟩) rfl rfl rfl (fun _ h1 h2 => ⟨h1, h2⟩)
      fun _ m _ _ h1 h2 _ _ => ⟨m, h1, h2⟩
  | remove s order =>
    simp only [step] at hnp hH ⊢
    rcases remove_cases b s order with ⟨-, e⟩ | ⟨-, e⟩ | ⟨hs, e, f, -, f2⟩
    · rw [e]; exact hi.same hR rfl Iff.rfl
    · rw [e] at hnp; exact absurd rfl hnp
    · have hbs := hS.bys s
      rw [← hS.sess, hs] at hbs
      obtain ⟨m, hm⟩ := Option.isSome_iff_exists.1 hbs
      have hnp' : (removeSession b s order).2 ≠ .panic := by rw [e]; simp
      obtain ⟨T, hT, g⟩ := remove_spec (order := order) (fun p a h => (hR.byp p a h).2) hm hs hnp'
      rw [e]
      exact hi.removed hR hm hT g f f2 _
  | receive s m order rnd =>
    simp only [step] at hnp hH ⊢
    cases m with
    | call r o p0 a k bin =>
      simp only [receive] at hnp hH ⊢
      have hob : ∀ a nc a', ∀ b' : State, b'.heap = hset b.heap a { b.heap a with nextCallee := nc } →
          (b'.heap a').id = (b.heap a').id ∧ (b'.heap a').procedure = (b.heap a').procedure ∧ (b'.heap a').policy = (b.heap a').policy ∧
          (b'.heap a').mtch = (b.heap a').mtch ∧ (b'.heap a').registrants = (b.heap a').registrants := by
        intro a nc a' b' e
        obtain ⟨e1, e2, e3, e4, e5, e6⟩ := hset_next b a nc a'
        rw [e]
        exact ⟨e1, e2, e5, e6, e4⟩
      rcases call_cases w b s r o p0 a k bin order rnd with ⟨-, e⟩ | ⟨e, -⟩ | ⟨a', callee, nc, inv, -, -, -, e, -⟩
      · rw [e]; exact hi.same hR rfl Iff.rfl
      · rw [e] at hnp; exact absurd rfl hnp
      · generalize Res.map (fun x => Out.msg x.1 x.2) (call w b s r o p0 a k bin order rnd).2 = res
        have h4 : ∀ x, ∀ b' : State, b'.heap = hset b.heap a' { b.heap a' with nextCallee := nc } → b'.next = b.next → x < b'.next →
            (b'.heap x).procedure = p → x < b.next ∧ (b.heap x).procedure = p := by
          intro x b' e1 e2 h1 h2
          rw [(hob a' nc x b' e1).2.1] at h2
          exact ⟨e2 ▸ h1, h2⟩
        rcases e with ⟨-, -, e⟩ | ⟨-, -, e⟩ <;> rw [e]
        · exact hi.quiet hR rfl Iff.rfl (fun x _ _ => hob a' nc x _ rfl) rfl rfl rfl (fun x => h4 x _ rfl rfl)
            fun _ m _ _ h1 h2 _ _ => ⟨m, h1, h2⟩
        · exact hi.quiet hR rfl Iff.rfl (fun x _ _ => hob a' nc x _ rfl) rfl rfl rfl (fun x => h4 x _ rfl rfl)
            fun _ m _ _ h1 h2 _ _ => ⟨m, h1, h2⟩
    | yield r o a k bin =>
      simp only [receive]
      generalize hres : Res.map (fun x => Out.msg x.1 x.2) (yield b r o a k bin).2 = res
      rcases yield_cases b r o a k bin with ⟨-, e⟩ | ⟨p, -, e, -⟩
      · rw [e]; exact hi.same hR rfl Iff.rfl
      · rw [e]
        split
        · exact hi.same hR rfl Iff.rfl
        · exact hi.quiet hR rfl Iff.rfl (fun _ _ _ => ⟨rfl, rfl, rfl, rfl, rfl⟩) rfl rfl rfl (fun _ h1 h2 => ⟨h1, h2⟩)
            fun _ m _ _ h1 h2 _ _ => ⟨m, h1, h2⟩
    | error t r d u a k =>
      simp only [receive]
      rcases error_cases b t r d u a k with ⟨-, e⟩ | ⟨-, p, -, e⟩ <;> rw [e]
      · exact hi.same hR rfl Iff.rfl
      · exact hi.quiet hR rfl Iff.rfl (fun _ _ _ => ⟨rfl, rfl, rfl, rfl, rfl⟩) rfl rfl rfl (fun _ h1 h2 => ⟨h1, h2⟩)
            fun _ m _ _ h1 h2 _ _ => ⟨m, h1, h2⟩
    | register r o p0 =>
      simp only [receive]
      rcases register_cases b s r o p0 with ⟨-, e⟩ | ⟨m, hm, ⟨a, -, -, e⟩ | ⟨a, ha, -, e⟩ | ⟨hp, e⟩⟩
      · rw [e]; exact hi.same hR rfl Iff.rfl
      · rw [e]; exact hi.same hR rfl Iff.rfl
      · rw [e]; exact hi.join hR hm ha ..
      · rw [e, hg]; exact hi.create hR hm hp (Nat.lt_succ_self _) ..
    | unregister r i =>
      simp only [receive] at hnp hH ⊢
      rcases unregister_cases b s r i with e | e | ⟨m, a, hm, -, e, -⟩
      · rw [e]; exact hi.same hR rfl Iff.rfl
      · rw [e] at hnp; exact absurd rfl hnp
      · rw [e] at hH ⊢
        exact hi.unreg hR hH.1 (by rw [e]; simp) (by rw [e]; simp) ..
    | _ => exact hi.same hR rfl Iff.rfl

theorem hist_hinv {w : Str → Str → Bool} {h : List Event} {b : State} (hh : Hist w h b) (hlen : h.length ≤ maxID) (hH : Held p h) :
    HInv p h b := by
  induction hh with
  | new => exact init_hinv
  | step op hh hnp ih =>
    simp only [List.length_cons] at hlen
    exact step_hinv (hist_sinv hh) (hist_rinv hh (by omega)) (ih (by omega) hH.tail) (by omega) op hnp hH

end Wamp.Dealer
