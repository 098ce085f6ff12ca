import Verif.Lemmas.DealerHeld
/-!
# The registration of one procedure after histories without the known trouble
-/
namespace Wamp.Dealer

variable {p : Str}

theorem Tame.held : ∀ {h : List Event}, Tame p h → Held p h
  | [], _ => trivial
  | e :: h, ht => by
    have ih := Tame.held ht.2
    unfold Held
    split
    · trivial
    · rename_i heq
      cases heq
      refine ⟨fun hid => ?_, ih⟩
      obtain ⟨r, h1, h2, h3⟩ := ht.1 hid
      exact ⟨r, h1, h2, by rw [h3]; exact List.mem_singleton.2 rfl⟩
    · rename_i heq
      cases heq
      exact ih

/-- Callees are the members, the registration is only in the maps of its members, and a wildcard pattern that nobody was removed from is in
the table. -/
structure TInv (p : Str) (h : List Event) (b : State) : Prop where
  cs : ∀ a r, b.byProc p = some a → regOf h p = some r → (b.heap a).callees = r.members ∧ (b.heap a).registrants = r.members ∧ r.members.Nodup
  ses : ∀ s m i a, b.bySession s = some m → m.get i = some a → (b.heap a).procedure = p → b.byProc p = some a ∧ s ∈ (b.heap a).registrants
  wcl : ∀ a, b.byProc p = some a → (b.heap a).mtch = matchWildcard → intact h p → b.wc.get p = some a
  wci : ∀ a, b.wc.get p = some a → intact h p

theorem init_tinv : TInv p [] init := by
  refine ⟨?_, ?_, ?_, ?_⟩ <;> simp [init, AMap.get, FMap.empty]

theorem TInv.quiet {h : List Event} {b b' : State} (hR : RInv h b) (hi : TInv p h b) {e : Event} (hr : regOf (e :: h) p = regOf h p)
    (he : intact (e :: h) p ↔ intact h p)
    (ho : ∀ a < b.next, (b.heap a).procedure = p → (b'.heap a).callees = (b.heap a).callees ∧
      (b'.heap a).mtch = (b.heap a).mtch ∧ (b'.heap a).registrants = (b.heap a).registrants)
    (h1 : b'.byProc p = b.byProc p) (h3 : b'.wc.get p = b.wc.get p)
    (h5 : ∀ s m i a, b'.bySession s = some m → m.get i = some a → (b'.heap a).procedure = p →
      ∃ m0, b.bySession s = some m0 ∧ m0.get i = some a ∧ (b.heap a).procedure = p) : TInv p (e :: h) b' := by
  have hob : ∀ a, b.byProc p = some a → _ := fun a k => ho a (hR.byp p a k).1 (hR.byp p a k).2
  refine ⟨?_, ?_, ?_, ?_⟩
  · intro a r hp hreg
    rw [h1] at hp
    rw [hr] at hreg
    rw [(hob a hp).1, (hob a hp).2.2]
    exact hi.cs a r hp hreg
  · intro s m i a hs hg hpr
    obtain ⟨m0, k1, k2, k3⟩ := h5 s m i a hs hg hpr
    rw [h1, (ho a (hR.sesp s m0 i a k1 k2).1 k3).2.2]
    exact hi.ses s m0 i a k1 k2 k3
  · intro a hp hm hin
    rw [h1] at hp
    rw [(hob a hp).2.1] at hm
    rw [h3]
    exact hi.wcl a hp hm (he.1 hin)
  · intro a hp
    rw [h3] at hp
    exact he.2 (hi.wci a hp)

theorem TInv.same {h : List Event} {b : State} (hR : RInv h b) (hi : TInv p h b) {e : Event} (hr : regOf (e :: h) p = regOf h p)
    (he : intact (e :: h) p ↔ intact h p) : TInv p (e :: h) b :=
  hi.quiet hR hr he (fun _ _ _ => ⟨rfl, rfl, rfl⟩) rfl rfl fun _ m _ _ h1 h2 h3 => ⟨m, h1, h2, h3⟩

theorem TInv.join {h : List Event} {b : State} (hR : RInv h b) (hH : HInv p h b) (hi : TInv p h b) {s q : Nat} {o : GoMap} {p0 : Str} {a : Nat}
    {m : AMap Nat Nat} (hm : b.bySession s = some m) (ha : b.byProc p0 = some a) (hs : p0 = p → s ∉ members h p)
    (order : List Str) (rnd q' s' : Nat) :
    TInv p (⟨.receive s (.register q o p0) order rnd, .ok (.msg (.registered q' (b.heap a).id) s')⟩ :: h) { b with
      heap := hset b.heap a { b.heap a with
        registrants := if (b.heap a).registrants.contains s then (b.heap a).registrants else (b.heap a).registrants ++ [s]
        callees := (b.heap a).callees ++ [s] }
      bySession := b.bySession.set s (m.set (b.heap a).id a) } := by
  have hproc := (hR.byp p0 a ha).2
  by_cases hpp : p0 = p
  · subst hpp
    replace hs := hs rfl
    obtain ⟨r, hr0, hr1, hr2, hr3, hr4, hr5⟩ := hH.live a ha
    obtain ⟨c1, c2, c3⟩ := hi.cs a r ha hr0
    rw [members_def h p0 hr0] at hs
    have hnc : (if (b.heap a).registrants.contains s then (b.heap a).registrants else (b.heap a).registrants ++ [s]) = r.members ++ [s] := by
      rw [c2, if_neg]; simpa using hs
    rw [hnc, c1]
    have heap2 : ∀ x, x ≠ a → hset b.heap a { b.heap a with registrants := r.members ++ [s], callees := r.members ++ [s] } x = b.heap x := by
      intro x hx; simp only [hset]; rw [if_neg hx]
    have hHa : hset b.heap a { b.heap a with registrants := r.members ++ [s], callees := r.members ++ [s] } a =
        { b.heap a with registrants := r.members ++ [s], callees := r.members ++ [s] } := by simp [hset]
    generalize hset b.heap a { b.heap a with registrants := r.members ++ [s], callees := r.members ++ [s] } = H at heap2 hHa ⊢
    have hmt : ∀ x, (H x).mtch = (b.heap x).mtch := by
      intro x
      by_cases hx : x = a
      · subst hx; rw [hHa]
      · rw [heap2 x hx]
    have hpr : ∀ x, (H x).procedure = (b.heap x).procedure := by
      intro x
      by_cases hx : x = a
      · subst hx; rw [hHa]
      · rw [heap2 x hx]
    have hin : intact (⟨.receive s (.register q o p0) order rnd, .ok (.msg (.registered q' (b.heap a).id) s')⟩ :: h) p0 ↔ intact h p0 := by
      simp only [intact]
      constructor
      · rintro (⟨-, h2⟩ | h1)
        · rw [hr0] at h2; cases h2
        · exact h1
      · exact .inr
    have hgrow : ∀ x y, y ∈ (b.heap x).registrants → y ∈ (H x).registrants := by
      intro x y hy
      by_cases hx : x = a
      · subst hx; rw [hHa]; rw [c2] at hy; exact List.mem_append_left _ hy
      · rw [heap2 x hx]; exact hy
    refine ⟨?_, ?_, ?_, ?_⟩
    · intro a' r' hp' hr'
      simp only at hp' ⊢
      rw [ha] at hp'
      cases hp'
      simp only [regOf, hr0, if_true, Option.some.injEq] at hr'
      subst hr'
      rw [hHa]
      refine ⟨rfl, rfl, ?_⟩
      simp only [List.nodup_append, c3, true_and]
      refine ⟨by simp, ?_⟩
      intro x hx y hy
      simp only [List.mem_singleton] at hy
      subst hy
      rintro rfl
      exact hs hx
    · intro x m' i a' hx hg hpa
      simp only [FMap.set_apply, hpr] at hx hpa ⊢
      by_cases hxs : x = s
      · subst hxs
        rw [if_pos rfl] at hx
        cases hx
        rw [AMap.get_set] at hg
        split at hg
        · cases hg
          rw [hHa]
          exact ⟨ha, by simp⟩
        · obtain ⟨k1, k2⟩ := hi.ses x m i a' hm hg hpa
          exact ⟨k1, hgrow a' x k2⟩
      · rw [if_neg hxs] at hx
        obtain ⟨k1, k2⟩ := hi.ses x m' i a' hx hg hpa
        exact ⟨k1, hgrow a' x k2⟩
    · intro a' hp' hm' hin'
      simp only [hmt] at hp' hm' ⊢
      exact hi.wcl a' hp' hm' (hin.1 hin')
    · intro a' hp'
      exact hin.2 (hi.wci a' hp')
  · generalize (if (b.heap a).registrants.contains s then (b.heap a).registrants else (b.heap a).registrants ++ [s]) = nr
    have heap2 : ∀ x, x ≠ a → hset b.heap a { b.heap a with registrants := nr, callees := (b.heap a).callees ++ [s] } x = b.heap x := by
      intro x hx; simp only [hset]; rw [if_neg hx]
    have hHa : hset b.heap a { b.heap a with registrants := nr, callees := (b.heap a).callees ++ [s] } a =
        { b.heap a with registrants := nr, callees := (b.heap a).callees ++ [s] } := by simp [hset]
    generalize hset b.heap a { b.heap a with registrants := nr, callees := (b.heap a).callees ++ [s] } = H at heap2 hHa ⊢
    refine hi.quiet hR (by simp [regOf, hpp]) ?_ ?_ rfl rfl ?_
    · simp only [intact, hpp, false_and, false_or]
    · intro x _ hx2
      simp only
      rw [heap2 x (fun e => hpp (hproc.symm.trans (e ▸ hx2)))]
      exact ⟨rfl, rfl, rfl⟩
    · intro x m' i a' hx hg hpa
      simp only [FMap.set_apply] at hx hpa
      have hne : a' ≠ a := by
        rintro rfl
        rw [hHa] at hpa
        exact hpp (hproc.symm.trans hpa)
      rw [heap2 a' hne] at hpa
      split at hx
      · rename_i e
        subst e
        cases hx
        rw [AMap.get_set] at hg
        split at hg
        · cases hg; exact absurd rfl hne
        · exact ⟨m, hm, hg, hpa⟩
      · exact ⟨m', hx, hg, hpa⟩

theorem TInv.create {h : List Event} {b : State} (hR : RInv h b) (hH : HInv p h b) (hi : TInv p h b) {s q i : Nat} {o : GoMap} {p0 : Str}
    {m : AMap Nat Nat} (hm : b.bySession s = some m) (hp : b.byProc p0 = none) (g : Nat) (order : List Str) (rnd q' s' : Nat) :
    TInv p (⟨.receive s (.register q o p0) order rnd, .ok (.msg (.registered q' i) s')⟩ :: h) { b with
      heap := hset b.heap b.next ⟨i, p0, [s], o.text optInvoke, 0, [s], normMatch (o.text optMatch)⟩
      next := b.next + 1
      idGen := g
      tree := if normMatch (o.text optMatch) = matchPrefix then b.tree.set p0 b.next else b.tree
      wc := if normMatch (o.text optMatch) = matchWildcard then b.wc.set p0 b.next else b.wc
      byProc := b.byProc.set p0 b.next
      bySession := b.bySession.set s (m.set i b.next) } := by
  have heap2 : ∀ x, x < b.next → hset b.heap b.next ⟨i, p0, [s], o.text optInvoke, 0, [s], normMatch (o.text optMatch)⟩ x = b.heap x := by
    intro x hx; simp only [hset]; rw [if_neg (by omega)]
  have hHa : hset b.heap b.next ⟨i, p0, [s], o.text optInvoke, 0, [s], normMatch (o.text optMatch)⟩ b.next =
      ⟨i, p0, [s], o.text optInvoke, 0, [s], normMatch (o.text optMatch)⟩ := by simp [hset]
  generalize hset b.heap b.next ⟨i, p0, [s], o.text optInvoke, 0, [s], normMatch (o.text optMatch)⟩ = H at heap2 hHa ⊢
  by_cases hpp : p0 = p
  · subst hpp
    have hnone := hH.dead hp
    refine ⟨?_, ?_, ?_, ?_⟩
    · intro a' r' hp' hr'
      simp only [FMap.set_same] at hp' ⊢
      cases hp'
      simp only [regOf, hnone, if_true, Option.some.injEq] at hr'
      subst hr'
      rw [hHa]
      exact ⟨rfl, rfl, by simp⟩
    · intro x m' j a' hx hg hpa
      have old : ∀ m0, b.bySession x = some m0 → m0.get j = some a' → (b.heap a').procedure = p0 → False := by
        intro m0 h1 h2 h3
        have := (hi.ses x m0 j a' h1 h2 h3).1
        rw [hp] at this
        cases this
      simp only [FMap.set_apply, if_true] at hx hpa ⊢
      by_cases hxs : x = s
      · subst hxs
        rw [if_pos rfl] at hx
        cases hx
        rw [AMap.get_set] at hg
        split at hg
        · cases hg
          rw [hHa]
          simp
        · rw [heap2 a' (hR.sesp x m j a' hm hg).1] at hpa
          exact (old m hm hg hpa).elim
      · rw [if_neg hxs] at hx
        rw [heap2 a' (hR.sesp x m' j a' hx hg).1] at hpa
        exact (old m' hx hg hpa).elim
    · intro a' hp' hm' hin'
      simp only [FMap.set_same] at hp' hm' ⊢
      cases hp'
      rw [hHa] at hm'
      simp only at hm'
      rw [if_pos hm', AMap.get_set, if_pos rfl]
    · intro a' _
      simp only [intact]
      exact .inl ⟨trivial, hnone⟩
  · have hpp' : p ≠ p0 := Ne.symm hpp
    refine hi.quiet hR (by simp [regOf, hpp]) ?_ ?_ ?_ ?_ ?_
    · simp only [intact, hpp, false_and, false_or]
    · intro x hx _
      simp only
      rw [heap2 x hx]
      exact ⟨rfl, rfl, rfl⟩
    · simp only [FMap.set_apply, if_neg hpp']
    · simp only
      split
      · rw [AMap.get_set, if_neg hpp']
      · rfl
    · intro x m' j a' hx hg hpa
      simp only [FMap.set_apply] at hx hpa
      split at hx
      · rename_i e
        subst e
        cases hx
        rw [AMap.get_set] at hg
        split at hg
        · cases hg; rw [hHa] at hpa; exact absurd hpa hpp
        · rw [heap2 a' (hR.sesp x m j a' hm hg).1] at hpa
          exact ⟨m, hm, hg, hpa⟩
      · rw [heap2 a' (hR.sesp x m' j a' hx hg).1] at hpa
        exact ⟨m', hx, hg, hpa⟩

theorem TInv.unreg {h : List Event} {b : State} (hR : RInv h b) (hH : HInv p h b) (hi : TInv p h b) {s q i : Nat}
    (hh : idOf h p i → ∃ r, regOf h p = some r ∧ r.id = i ∧ r.members = [s])
    (hnp : (unregister b s q i).2 ≠ .panic) (hne : (unregister b s q i).2 ≠ .err) (order : List Str) (rnd : Nat) (x : Out) :
    TInv p (⟨.receive s (.unregister q i) order rnd, .ok x⟩ :: h) (unregister b s q i).1 := by
  have hin : intact (⟨.receive s (.unregister q i) order rnd, .ok x⟩ :: h) p ↔ intact h p := Iff.rfl
  simp only [unregister] at hnp hne ⊢
  cases hm : b.bySession s with
  | none => rw [hm] at hne; exact absurd rfl hne
  | some m =>
    rw [hm] at hnp hne
    simp only at hnp hne ⊢
    split
    · rename_i hemp; rw [if_pos hemp] at hne; exact absurd rfl hne
    · rename_i hemp
      rw [if_neg hemp] at hnp hne
      cases hg : m.get i with
      | none => rw [hg] at hnp; exact absurd rfl hnp
      | some a =>
        simp only
        obtain ⟨ha1, ha2⟩ := hR.sesp s m i a hm hg
        have heap2 : ∀ y, y ≠ a → hset b.heap a { b.heap a with registrants := (b.heap a).registrants.filter (· ≠ s) } y = b.heap y := by
          intro y hy; simp only [hset]; rw [if_neg hy]
        have hHa : hset b.heap a { b.heap a with registrants := (b.heap a).registrants.filter (· ≠ s) } a =
            { b.heap a with registrants := (b.heap a).registrants.filter (· ≠ s) } := by simp [hset]
        generalize hset b.heap a { b.heap a with registrants := (b.heap a).registrants.filter (· ≠ s) } = H at heap2 hHa ⊢
        have hpr : ∀ y, (H y).procedure = (b.heap y).procedure := by
          intro y
          by_cases hy : y = a
          · subst hy; rw [hHa]
          · rw [heap2 y hy]
        by_cases hproc : (b.heap a).procedure = p
        · obtain ⟨r, hr0, hrid, hmem⟩ := hh (by rw [← hproc, ← ha2]; exact hR.born a ha1)
          have ha := hH.own hR hm hg hr0 hrid
          obtain ⟨c1, c2, c3⟩ := hi.cs a r ha hr0
          have hemp' : (b.heap a).registrants.filter (· ≠ s) = [] := by rw [c2, hmem]; simp
          rw [if_pos (List.isEmpty_iff.2 hemp')]
          refine ⟨?_, ?_, ?_, ?_⟩
          · intro a' r' hp' hr'
            simp only [hproc, FMap.del_same] at hp'
            cases hp'
          · intro y m' j a' hy hj hpa
            simp only [hpr] at hpa
            exfalso
            have key : ∃ m0, b.bySession y = some m0 ∧ m0.get j = some a' ∧ (y = s → j ≠ i) := by
              simp only [FMap.set_apply] at hy
              split at hy
              · rename_i e
                subst e
                cases hy
                rw [AMap.get_del] at hj
                split at hj
                · cases hj
                · rename_i hji
                  exact ⟨m, hm, hj, fun _ => hji⟩
              · rename_i hys
                exact ⟨m', hy, hj, fun e => absurd e hys⟩
            obtain ⟨m0, k1, k2, k3⟩ := key
            obtain ⟨l1, l2⟩ := hi.ses y m0 j a' k1 k2 hpa
            rw [ha] at l1
            cases l1
            rw [c2, hmem, List.mem_singleton] at l2
            exact k3 l2 ((hR.sesp y m0 j a k1 k2).2.symm.trans ha2)
          · intro a' hp' hm' hin'
            simp only [hproc, FMap.del_same] at hp'
            cases hp'
          · intro a' hp'
            rw [hin]
            simp only at hp'
            split at hp'
            · rw [hproc, AMap.get_del, if_pos rfl] at hp'
              cases hp'
            · exact hi.wci a' hp'
        · have hpp : p ≠ (b.heap a).procedure := Ne.symm hproc
          have hob : ∀ y < b.next, (b.heap y).procedure = p → (H y).callees = (b.heap y).callees ∧
              (H y).mtch = (b.heap y).mtch ∧ (H y).registrants = (b.heap y).registrants := by
            intro y _ hy
            rw [heap2 y (fun e => hproc (e ▸ hy))]
            exact ⟨rfl, rfl, rfl⟩
          have hrg := unreg_other hR hH hm hg hproc order rnd x (q := q)
          split
          · refine hi.quiet hR hrg hin hob ?_ ?_ ?_
            · simp only [FMap.del_apply, if_neg hpp]
            · simp only
              split
              · rw [AMap.get_del, if_neg hpp]
              · rfl
            · intro y m' j a' h1 h2 h4
              simp only [FMap.set_apply, hpr] at h1 h4
              split at h1
              · rename_i e
                subst e
                cases h1
                rw [AMap.get_del] at h2
                split at h2
                · cases h2
                · exact ⟨m, hm, h2, h4⟩
              · exact ⟨m', h1, h2, h4⟩
          · refine hi.quiet hR hrg hin hob rfl rfl ?_
            · intro y m' j a' h1 h2 h4
              simp only [hpr] at h4
              exact ⟨m', h1, h2, h4⟩

theorem TInv.removed {h : List Event} {b : State} (hR : RInv h b) (hH : HInv p h b) (hi : TInv p h b) {s : Nat} {order : List Nat} {m : AMap Nat Nat}
    (hm : b.bySession s = some m) {T : List Str} (hT : ∀ p, p ∈ T ↔ ∃ i a, m.get i = some a ∧ (b.heap a).procedure = p)
    {b' : State} (g : Gone s T b b') (f : Frame b b') (hb : b'.bySession = b.bySession.del s) (x : Out) :
    TInv p (⟨.remove s order, .ok x⟩ :: h) b' := by
  obtain ⟨l1, l2, l3, l4⟩ := remove_live hR hH hm hT g
  have hreg : regOf (⟨.remove s order, .ok x⟩ :: h) p = (regOf h p).bind (leave s) := rfl
  have back : ∀ a, b'.byProc p = some a → b.byProc p = some a ∧ (b.heap a).registrants.filter (· ≠ s) ≠ [] := by
    intro a hp
    cases hp0 : b.byProc p with
    | none => rw [l2 hp0] at hp; cases hp
    | some a0 =>
      rw [(l1 a0 hp0).2] at hp
      split at hp
      · cases hp
      · cases hp; exact ⟨rfl, by assumption⟩
  -- the session was a member if the procedure is touched
  have hTm : p ∈ T → ∃ a, b.byProc p = some a ∧ s ∈ (b.heap a).registrants := by
    intro hp
    obtain ⟨i, a, h1, h2⟩ := (hT p).1 hp
    obtain ⟨k1, k2⟩ := hi.ses s m i a hm h1 h2
    exact ⟨a, k1, k2⟩
  have hcal : ∀ a r, b.byProc p = some a → regOf h p = some r → (b'.heap a).callees = r.members.filter (· ≠ s) := by
    intro a r hp hr
    obtain ⟨c1, c2, c3⟩ := hi.cs a r hp hr
    by_cases hpT : p ∈ T
    · rw [g.cut p a hpT hp (c1 ▸ c3), c1]
    · have hs : s ∉ r.members := fun hs => hpT (l4 a hp (c2 ▸ hs))
      rw [g.other a, c1]
      · symm
        rw [List.filter_eq_self]
        intro y hy
        simp only [decide_eq_true_eq]
        rintro rfl
        exact hs hy
      · intro p' h1 h2
        exact hpT ((hR.byp p' a h2).2.symm.trans (hR.byp p a hp).2 ▸ h1)
  refine ⟨?_, ?_, ?_, ?_⟩
  · intro a r hp hr
    obtain ⟨hp0, hne⟩ := back a hp
    obtain ⟨r0, k0, -⟩ := hH.live a hp0
    obtain ⟨c1, c2, c3⟩ := hi.cs a r0 hp0 k0
    rw [hreg, k0, Option.bind_some, leave, if_neg (by rw [← c2]; exact hne)] at hr
    cases hr
    rw [hcal a r0 hp0 k0, (l1 a hp0).1, c2]
    exact ⟨rfl, rfl, c3.filter _⟩
  · intro y m' j a hy hj hpa
    rw [(g.objs a).2.1] at hpa
    rw [hb, FMap.del_apply] at hy
    split at hy
    · cases hy
    · rename_i hys
      obtain ⟨k1, k2⟩ := hi.ses y m' j a hy hj hpa
      rw [(l1 a k1).1, (l1 a k1).2]
      have : y ∈ (b.heap a).registrants.filter (· ≠ s) := List.mem_filter.2 ⟨k2, by simpa using hys⟩
      refine ⟨?_, this⟩
      rw [if_neg]
      intro e
      rw [e] at this
      cases this
  · intro a hp hmt hin
    obtain ⟨hp0, hne⟩ := back a hp
    rw [(g.objs a).2.2.2.1] at hmt
    simp only [intact] at hin
    have hpT : p ∉ T := by
      intro hpT
      obtain ⟨a', k1, k2⟩ := hTm hpT
      obtain ⟨r0, k0, -⟩ := hH.live a' k1
      rw [(hi.cs a' r0 k1 k0).2.1, ← members_def h p k0] at k2
      exact hin.1 k2
    rw [(g.miss p (.inl hpT)).2]
    exact hi.wcl a hp0 hmt hin.2
  · intro a hp
    have hp0 := f.wcs p a hp
    obtain ⟨k1, k2⟩ := hH.wl a hp0
    have hpT : p ∉ T := by
      intro hpT
      rw [(g.hit p a hpT k1).2.2, if_pos k2] at hp
      cases hp
    simp only [intact]
    refine ⟨?_, hi.wci a hp0⟩
    intro hs
    obtain ⟨r0, k0, -, -, -, k4, -⟩ := hH.live a k1
    rw [members_def h p k0] at hs
    exact hpT (l4 a k1 ((k4 s).2 hs))

theorem step_tinv {w : Str → Str → Bool} {h : List Event} {b : State} (hS : SInv h b) (hR : RInv h b) (hH : HInv p h b) (hi : TInv p h b)
    (op : Op) (hnp : (step w b op).2 ≠ .panic) (ht : tameStep p h ⟨op, (step w b op).2⟩) :
    TInv p (⟨op, (step w b op).2⟩ :: h) (step w b op).1 := by
  cases op with
  | add d =>
    simp only [step, addSession]
    split
    · exact hi.same hR rfl Iff.rfl
    · refine hi.quiet hR rfl Iff.rfl (fun _ _ _ => ⟨rfl, rfl, rfl⟩) rfl rfl ?_
      intro s m i a h1 h2 h3
      simp only [FMap.set_apply] at h1
      split at h1
      · cases h1; cases h2
      · exact ⟨m, h1, h2, h3⟩
  | has p => exact hi.same hR rfl Iff.rfl
  | disclose on =>
    exact hi.quiet hR rfl Iff.rfl (fun _ _ _ => ⟨rfl, rfl, rfl⟩) rfl rfl fun _ m _ _ h1 h2 h3 => ⟨m, h1, h2, h3⟩
  | remove s order =>
    simp only [step] at hnp ⊢
    rcases remove_cases b s order with ⟨-, e⟩ | ⟨-, e⟩ | ⟨hs, e, f, -, f2⟩
    · rw [e]; exact hi.same hR rfl Iff.rfl
    · rw [e] at hnp; exact absurd rfl hnp
    · have hbs := hS.bys s
      rw [← hS.sess, hs] at hbs
      obtain ⟨m, hm⟩ := Option.isSome_iff_exists.1 hbs
      have hnp' : (removeSession b s order).2 ≠ .panic := by rw [e]; simp
      obtain ⟨T, hT, g⟩ := remove_spec (order := order) (fun p a h => (hR.byp p a h).2) hm hs hnp'
      rw [e]
      exact hi.removed hR hH hm hT g f f2 _
  | receive s m order rnd =>
    simp only [step] at hnp ht ⊢
    cases m with
    | call r o p0 a k bin =>
      simp only [receive] at hnp ⊢
      have hob : ∀ a nc a', ∀ b' : State, b'.heap = hset b.heap a { b.heap a with nextCallee := nc } →
          (b'.heap a').callees = (b.heap a').callees ∧
          (b'.heap a').mtch = (b.heap a').mtch ∧ (b'.heap a').registrants = (b.heap a').registrants := by
        intro a nc a' b' e
        obtain ⟨e1, e2, e3, e4, e5, e6⟩ := hset_next b a nc a'
        rw [e]
        exact ⟨e3, e6, e4⟩
      rcases call_cases w b s r o p0 a k bin order rnd with ⟨-, e⟩ | ⟨e, -⟩ | ⟨a', callee, nc, inv, -, -, -, e, -⟩
      · rw [e]; exact hi.same hR rfl Iff.rfl
      · rw [e] at hnp; exact absurd rfl hnp
      · generalize Res.map (fun x => Out.msg x.1 x.2) (call w b s r o p0 a k bin order rnd).2 = res
        have h5 : ∀ x, (hset b.heap a' { b.heap a' with nextCallee := nc } x).procedure = (b.heap x).procedure :=
          fun x => (hset_next b a' nc x).2.1
        rcases e with ⟨-, -, e⟩ | ⟨-, -, e⟩ <;> rw [e]
        · exact hi.quiet hR rfl Iff.rfl (fun x _ _ => hob a' nc x _ rfl) rfl rfl
            fun _ m _ x h1 h2 h3 => ⟨m, h1, h2, (h5 x).symm.trans h3⟩
        · exact hi.quiet hR rfl Iff.rfl (fun x _ _ => hob a' nc x _ rfl) rfl rfl
            fun _ m _ x h1 h2 h3 => ⟨m, h1, h2, (h5 x).symm.trans h3⟩
    | yield r o a k bin =>
      simp only [receive]
      generalize hres : Res.map (fun x => Out.msg x.1 x.2) (yield b r o a k bin).2 = res
      rcases yield_cases b r o a k bin with ⟨-, e⟩ | ⟨p, -, e, -⟩
      · rw [e]; exact hi.same hR rfl Iff.rfl
      · rw [e]
        split
        · exact hi.same hR rfl Iff.rfl
        · exact hi.quiet hR rfl Iff.rfl (fun _ _ _ => ⟨rfl, rfl, rfl⟩) rfl rfl fun _ m _ _ h1 h2 h3 => ⟨m, h1, h2, h3⟩
    | error t r d u a k =>
      simp only [receive]
      rcases error_cases b t r d u a k with ⟨-, e⟩ | ⟨-, p, -, e⟩ <;> rw [e]
      · exact hi.same hR rfl Iff.rfl
      · exact hi.quiet hR rfl Iff.rfl (fun _ _ _ => ⟨rfl, rfl, rfl⟩) rfl rfl fun _ m _ _ h1 h2 h3 => ⟨m, h1, h2, h3⟩
    | register r o p0 =>
      simp only [receive] at ht ⊢
      rcases register_cases b s r o p0 with ⟨-, e⟩ | ⟨m, hm, ⟨a, -, -, e⟩ | ⟨a, ha, -, e⟩ | ⟨hp, e⟩⟩
      · rw [e]; exact hi.same hR rfl Iff.rfl
      · rw [e]; exact hi.same hR rfl Iff.rfl
      · rw [e] at ht ⊢; exact hi.join hR hH hm ha ht ..
      · rw [e]; exact hi.create hR hH hm hp ..
    | unregister r i =>
      simp only [receive] at hnp ht ⊢
      rcases unregister_cases b s r i with e | e | ⟨m, a, hm, -, e, -⟩
      · rw [e]; exact hi.same hR rfl Iff.rfl
      · rw [e] at hnp; exact absurd rfl hnp
      · rw [e] at ht ⊢
        exact hi.unreg hR hH ht (by rw [e]; simp) (by rw [e]; simp) ..
    | _ => exact hi.same hR rfl Iff.rfl

theorem hist_tinv {w : Str → Str → Bool} {h : List Event} {b : State} (hh : Hist w h b) (hlen : h.length ≤ maxID) (ht : Tame p h) : TInv p h b := by
  induction hh with
  | new => exact init_tinv
  | step op hh hnp ih =>
    simp only [List.length_cons] at hlen
    exact step_tinv (hist_sinv hh) (hist_rinv hh (by omega)) (hist_hinv hh (by omega) ht.2.held) (ih (by omega) ht.2) op hnp ht.1

end Wamp.Dealer
