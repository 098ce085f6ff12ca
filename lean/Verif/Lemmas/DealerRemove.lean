import Verif.Lemmas.DealerCount
import Verif.Lemmas.Router
/-!
# What `RemoveSession` does to registrations
-/
namespace Wamp.Dealer

/-! ### Cutting a callee out of a slice while ranging over it -/

theorem surgery_miss {id : Nat} : ∀ (k i : Nat) (bk : List Nat) (len : Nat),
    (∀ j, i ≤ j → j < i + k → bk[j]? ≠ some id) → surgery id k i bk len = .ok (bk.take len)
  | 0, _, _, _, _ => rfl
  | k + 1, i, bk, len, h => by
    rw [surgery, if_neg (h i (Nat.le_refl _) (by omega))]
    exact surgery_miss k (i + 1) bk len fun j h1 h2 => h j (by omega) (by omega)

theorem surgery_nodup_from {id : Nat} {l : List Nat} (hn : l.Nodup) : ∀ (k i : Nat), i + k = l.length →
    (∀ j, j < i → l[j]? ≠ some id) → surgery id k i l l.length = .ok (l.filter (· ≠ id))
  | 0, i, hk, h => by
    rw [surgery, List.take_length]
    congr 1
    symm
    rw [List.filter_eq_self]
    intro a ha
    obtain ⟨j, hj, rfl⟩ := List.mem_iff_getElem.1 ha
    have := h j (by omega)
    rw [List.getElem?_eq_getElem hj] at this
    simpa using this
  | k + 1, i, hk, h => by
    have hi : i < l.length := by omega
    by_cases he : l[i]? = some id
    · rw [surgery, if_pos he]
      have hid : l[i] = id := by rw [List.getElem?_eq_getElem hi] at he; exact Option.some.inj he
      have huniq : ∀ j (hj : j < l.length), l[j] = id → j = i := by
        intro j hj e
        rcases Nat.lt_trichotomy j i with h1 | h1 | h1
        · exact absurd (e.trans hid.symm) (List.pairwise_iff_getElem.1 hn j i hj hi h1)
        · exact h1
        · exact absurd (hid.trans e.symm) (List.pairwise_iff_getElem.1 hn i j hi hj h1)
      have hfil : l.filter (· ≠ id) = l.take i ++ l.drop (i + 1) := by
        have hl : l = l.take i ++ l[i] :: l.drop (i + 1) := by
          rw [← List.drop_eq_getElem_cons, List.take_append_drop]
        have h1 : (l.take i).filter (· ≠ id) = l.take i := by
          rw [List.filter_eq_self]
          intro a ha
          obtain ⟨j, hj, rfl⟩ := List.mem_iff_getElem.1 ha
          rw [List.length_take] at hj
          rw [List.getElem_take]
          simp only [decide_eq_true_eq]
          intro e
          have := huniq j (by omega) e
          omega
        have h2 : (l.drop (i + 1)).filter (· ≠ id) = l.drop (i + 1) := by
          rw [List.filter_eq_self]
          intro a ha
          obtain ⟨j, hj, rfl⟩ := List.mem_iff_getElem.1 ha
          rw [List.length_drop] at hj
          rw [List.getElem_drop]
          simp only [decide_eq_true_eq]
          intro e
          have := huniq (i + 1 + j) (by omega) e
          omega
        conv => lhs; rw [hl]
        rw [List.filter_append, h1, List.filter_cons, h2]
        simp [hid]
      by_cases hlen : l.length = 1
      · rw [if_pos hlen]
        have : k = 0 := by omega
        subst this
        rw [surgery, hfil]
        have : i = 0 := by omega
        subst this
        simp
        rw [← List.drop_one, List.drop_of_length_le (by omega)]
      · rw [if_neg hlen, if_neg (by omega), List.take_length, surgery_miss]
        · rw [hfil]
          congr 1
          rw [List.take_append_of_le_length, List.take_of_length_le]
          · simp; omega
          · simp; omega
        · intro j h1 h2 e
          have hne : i < l.length - 1 := by omega
          rw [List.append_assoc, List.getElem?_append_right (by simp; omega)] at e
          simp only [List.length_take, Nat.min_eq_left (Nat.le_of_lt hi)] at e
          by_cases hj : j - i < (l.drop (i + 1)).length
          · rw [List.getElem?_append_left hj, List.getElem?_drop] at e
            rw [List.length_drop] at hj
            rw [List.getElem?_eq_getElem (by omega)] at e
            have := huniq _ _ (Option.some.inj e)
            omega
          · rw [List.getElem?_append_right (by omega), List.getElem?_drop] at e
            rw [List.length_drop] at hj e
            have hj' : l.length - 1 + (j - i - (l.length - (i + 1))) = l.length - 1 := by omega
            rw [hj', List.getElem?_eq_getElem (by omega)] at e
            have := huniq _ _ (Option.some.inj e)
            omega
    · rw [surgery, if_neg he]
      refine surgery_nodup_from hn k (i + 1) (by omega) fun j hj => ?_
      by_cases e : j = i
      · subst e; exact he
      · exact h j (by omega)

/-- On a slice without repetitions, it removes exactly the callee. -/
theorem surgery_nodup {id : Nat} {l : List Nat} (hn : l.Nodup) : surgery id l.length 0 l l.length = .ok (l.filter (· ≠ id)) :=
  surgery_nodup_from hn l.length 0 (by omega) (by omega)

/-! ### The loop -/

/-- The effect of the loop on the procedures `T` touched so far. -/
structure Gone (id : Nat) (T : List Str) (b b' : State) : Prop where
  objs : ∀ a, (b'.heap a).id = (b.heap a).id ∧ (b'.heap a).procedure = (b.heap a).procedure ∧ (b'.heap a).policy = (b.heap a).policy ∧
    (b'.heap a).mtch = (b.heap a).mtch ∧ (b'.heap a).nextCallee = (b.heap a).nextCallee
  other : ∀ a, (∀ p ∈ T, b.byProc p ≠ some a) → b'.heap a = b.heap a
  miss : ∀ p, p ∉ T ∨ b.byProc p = none → b'.byProc p = b.byProc p ∧ b'.wc.get p = b.wc.get p
  hit : ∀ p a, p ∈ T → b.byProc p = some a → (b'.heap a).registrants = (b.heap a).registrants.filter (· ≠ id) ∧
    b'.byProc p = (if (b.heap a).registrants.filter (· ≠ id) = [] then none else some a) ∧
    b'.wc.get p = (if (b.heap a).mtch = matchWildcard then none else b.wc.get p)
  cut : ∀ p a, p ∈ T → b.byProc p = some a → (b.heap a).callees.Nodup → (b'.heap a).callees = (b.heap a).callees.filter (· ≠ id)

theorem Gone.refl (id : Nat) (b : State) : Gone id [] b b :=
  ⟨fun _ => ⟨rfl, rfl, rfl, rfl, rfl⟩, fun _ _ => rfl, fun _ _ => ⟨rfl, rfl⟩, (fun _ _ h => nomatch h), (fun _ _ h => nomatch h)⟩

theorem Gone.step {id : Nat} {T : List Str} {b b1 b2 : State} (hp : ∀ p a, b.byProc p = some a → (b.heap a).procedure = p)
    (g : Gone id T b b1) {x : Nat} (h : removeStep id b1 x = .ok b2) : Gone id ((b.heap x).procedure :: T) b b2 := by
  have hinj : ∀ p p' a, b.byProc p = some a → b.byProc p' = some a → p = p' := fun p p' a h1 h2 => (hp p a h1).symm.trans (hp p' a h2)
  simp only [removeStep] at h
  rw [(g.objs x).2.1] at h
  generalize hq : (b.heap x).procedure = q at h ⊢
  cases hb : b1.byProc q with
  | none =>
    rw [hb] at h
    cases h
    -- nothing happens: `q` was not registered, or has been dealt with
    have hdone : b.byProc q = none ∨ q ∈ T := by
      by_cases hT : q ∈ T
      · exact .inr hT
      · rw [(g.miss q (.inl hT)).1] at hb; exact .inl hb
    refine ⟨g.objs, fun a ha => g.other a fun p h1 => ha p (List.mem_cons_of_mem _ h1), ?_, ?_, ?_⟩
    · rintro p (h1 | h1)
      · exact g.miss p (.inl fun h2 => h1 (List.mem_cons_of_mem _ h2))
      · exact g.miss p (.inr h1)
    · intro p a h1 h2
      rcases List.mem_cons.1 h1 with rfl | h1
      · rcases hdone with h3 | h3
        · rw [h2] at h3; cases h3
        · exact g.hit p a h3 h2
      · exact g.hit p a h1 h2
    · intro p a h1 h2
      rcases List.mem_cons.1 h1 with rfl | h1
      · rcases hdone with h3 | h3
        · rw [h2] at h3; cases h3
        · exact g.cut p a h3 h2
      · exact g.cut p a h1 h2
  | some a0 =>
    rw [hb] at h
    simp only at h
    -- `a0` is the registration of `q` from the beginning
    have hb0 : b.byProc q = some a0 := by
      by_cases hT : q ∈ T
      · cases hb' : b.byProc q with
        | none => rw [(g.miss q (.inr hb')).1, hb'] at hb; cases hb
        | some a1 =>
          obtain ⟨-, h2, -⟩ := g.hit q a1 hT hb'
          rw [hb] at h2
          split at h2
          · cases h2
          · exact h2.symm
      · rw [(g.miss q (.inl hT)).1] at hb; exact hb
    have hreg : (b1.heap a0).registrants.filter (· ≠ id) = (b.heap a0).registrants.filter (· ≠ id) := by
      by_cases hT : q ∈ T
      · rw [(g.hit q a0 hT hb0).1, List.filter_filter]; simp
      · rw [g.other a0 fun p h1 h2 => hT (hinj p q a0 h2 hb0 ▸ h1)]
    have hproc : (b1.heap a0).procedure = q := by rw [(g.objs a0).2.1]; exact hp q a0 hb0
    have hw1 : (if (b.heap a0).mtch = matchWildcard then none else b1.wc.get q) = if (b.heap a0).mtch = matchWildcard then none else b.wc.get q := by
      by_cases hT : q ∈ T
      · rw [(g.hit q a0 hT hb0).2.2]; split <;> rfl
      · rw [(g.miss q (.inl hT)).2]
    cases hs : surgery id (b1.heap a0).callees.length 0 (b1.heap a0).callees (b1.heap a0).callees.length with
    | err => rw [hs] at h; cases h
    | panic => rw [hs] at h; cases h
    | ok cs =>
      rw [hs] at h
      simp only [Res.bind_ok, Res.ok.injEq] at h
      subst h
      have heap2 : ∀ a, a ≠ a0 → hset b1.heap a0 { b1.heap a0 with
          registrants := (b1.heap a0).registrants.filter (· ≠ id), callees := cs } a = b1.heap a := by
        intro a ha; simp only [hset]; rw [if_neg ha]
      refine ⟨?_, ?_, ?_, ?_, ?_⟩
      · intro a
        by_cases ha : a = a0
        · subst ha; simp only [hset, if_true]; exact g.objs a
        · simp only; rw [heap2 a ha]; exact g.objs a
      · intro a ha
        simp only
        rw [heap2 a (fun e => ha q (List.mem_cons_self ..) (e ▸ hb0))]
        exact g.other a fun p h1 => ha p (List.mem_cons_of_mem _ h1)
      · intro p h1
        have hpq : p ≠ q := by
          rintro rfl
          rcases h1 with h1 | h1
          · exact h1 (List.mem_cons_self ..)
          · rw [h1] at hb0; cases hb0
        have h1' : p ∉ T ∨ b.byProc p = none := h1.imp (fun h2 h3 => h2 (List.mem_cons_of_mem _ h3)) fun h => h
        obtain ⟨k1, k2⟩ := g.miss p h1'
        simp only [hproc]
        refine ⟨?_, ?_⟩
        · split
          · rw [FMap.del_apply, if_neg hpq, k1]
          · exact k1
        · split
          · rw [AMap.get_del, if_neg hpq, k2]
          · exact k2
      · intro p a h1 h2
        by_cases hpq : p = q
        · subst hpq
          rw [hb0] at h2
          cases h2
          simp only [hset, if_true, hproc, hreg, (g.objs a0).2.2.2.1]
          refine ⟨trivial, ?_, ?_⟩
          · by_cases he : List.filter (fun x => decide (x ≠ id)) (b.heap a0).registrants = []
            · rw [if_pos he, if_pos (by rw [he]; rfl), FMap.del_same]
            · rw [if_neg he, if_neg (by rw [List.isEmpty_iff]; exact he), hb]
          · rw [← hw1]
            by_cases hw : (b.heap a0).mtch = matchWildcard
            · rw [if_pos hw, if_pos hw, AMap.get_del, if_pos rfl]
            · rw [if_neg hw, if_neg hw]
        · have h1' : p ∈ T := by
            rcases List.mem_cons.1 h1 with h3 | h3
            · exact absurd h3 hpq
            · exact h3
          have hne : a ≠ a0 := fun e => hpq (hinj p q a0 (e ▸ h2) hb0)
          obtain ⟨k1, k2, k3⟩ := g.hit p a h1' h2
          refine ⟨(congrArg Reg.registrants (heap2 a hne)).trans k1, ?_, ?_⟩ <;> simp only [hproc]
          · rw [← k2]
            split
            · rw [FMap.del_apply, if_neg hpq]
            · rfl
          · rw [← k3]
            split
            · rw [AMap.get_del, if_neg hpq]
            · rfl
      · intro p a h1 h2 hn
        by_cases hpq : p = q
        · subst hpq
          rw [hb0] at h2
          cases h2
          simp only [hset, if_true]
          have hc : (b1.heap a0).callees.Nodup ∧ (b1.heap a0).callees.filter (· ≠ id) = (b.heap a0).callees.filter (· ≠ id) := by
            by_cases hT : p ∈ T
            · rw [g.cut p a0 hT hb0 hn]
              refine ⟨hn.filter _, ?_⟩
              rw [List.filter_filter]; simp
            · rw [g.other a0 fun p' h1 h2 => hT (hinj p' p a0 h2 hb0 ▸ h1)]
              exact ⟨hn, rfl⟩
          rw [surgery_nodup hc.1] at hs
          cases hs
          exact hc.2
        · have h1' : p ∈ T := by
            rcases List.mem_cons.1 h1 with h3 | h3
            · exact absurd h3 hpq
            · exact h3
          have hne : a ≠ a0 := fun e => hpq (hinj p q a0 (e ▸ h2) hb0)
          simp only [heap2 a hne]
          exact g.cut p a h1' h2 hn

theorem Gone.loop {id : Nat} {b : State} (hp : ∀ p a, b.byProc p = some a → (b.heap a).procedure = p) :
    ∀ {as : List Nat} {T : List Str} {b1 b2 : State}, Gone id T b b1 → removeLoop id b1 as = .ok b2 →
      Gone id ((as.map fun a => (b.heap a).procedure).reverse ++ T) b b2
  | [], T, b1, b2, g, h => by cases h; simpa using g
  | a :: as, T, b1, b2, g, h => by
    simp only [removeLoop] at h
    cases hs : removeStep id b1 a with
    | err => rw [hs] at h; cases h
    | panic => rw [hs] at h; cases h
    | ok b' =>
      rw [hs] at h
      have := Gone.loop hp (Gone.step hp g hs) (b1 := b') h
      simpa using this

/-- The loop does not panic if no callee occurs twice in a registration. -/
theorem removeLoop_ok {id : Nat} {b : State} (hp : ∀ p a, b.byProc p = some a → (b.heap a).procedure = p)
    (hn : ∀ p a, b.byProc p = some a → (b.heap a).callees.Nodup) :
    ∀ {as : List Nat} {T : List Str} {b1 : State}, Gone id T b b1 → ∃ b2, removeLoop id b1 as = .ok b2
  | [], T, b1, g => ⟨b1, rfl⟩
  | a :: as, T, b1, g => by
    have hinj : ∀ p p' a, b.byProc p = some a → b.byProc p' = some a → p = p' := fun p p' a h1 h2 => (hp p a h1).symm.trans (hp p' a h2)
    have : ∃ b', removeStep id b1 a = .ok b' := by
      simp only [removeStep]
      rw [(g.objs a).2.1]
      generalize (b.heap a).procedure = q
      cases hb : b1.byProc q with
      | none => exact ⟨_, rfl⟩
      | some a0 =>
        have hb0 : b.byProc q = some a0 := by
          by_cases hT : q ∈ T
          · cases hb' : b.byProc q with
            | none => rw [(g.miss q (.inr hb')).1, hb'] at hb; cases hb
            | some a1 =>
              obtain ⟨-, h2, -⟩ := g.hit q a1 hT hb'
              rw [hb] at h2
              split at h2
              · cases h2
              · exact h2.symm
          · rw [(g.miss q (.inl hT)).1] at hb; exact hb
        have hc : (b1.heap a0).callees.Nodup := by
          by_cases hT : q ∈ T
          · rw [g.cut q a0 hT hb0 (hn q a0 hb0)]
            exact (hn q a0 hb0).filter _
          · rw [g.other a0 fun p' h1 h2 => hT (hinj p' q a0 h2 hb0 ▸ h1)]
            exact hn q a0 hb0
        simp only
        rw [surgery_nodup hc]
        exact ⟨_, rfl⟩
    obtain ⟨b', hs⟩ := this
    simp only [removeLoop, hs, Res.bind_ok]
    exact removeLoop_ok hp hn (Gone.step hp g hs)

/-- The whole of `RemoveSession`. -/
theorem remove_spec {b : State} {s : Nat} {order : List Nat} {m : AMap Nat Nat} (hp : ∀ p a, b.byProc p = some a → (b.heap a).procedure = p)
    (hm : b.bySession s = some m) (hs : (b.sessions s).isSome = true) (hok : (removeSession b s order).2 ≠ .panic) :
    ∃ T : List Str, (∀ p, p ∈ T ↔ ∃ i a, m.get i = some a ∧ (b.heap a).procedure = p) ∧ Gone s T b (removeSession b s order).1 := by
  simp only [removeSession] at hok ⊢
  cases hd : b.sessions s with
  | none => rw [hd] at hs; cases hs
  | some d =>
    rw [hd] at hok
    simp only [hm, Option.getD_some] at hok ⊢
    cases hl : removeLoop s b ((arrange order m.keys).filterMap m.get) with
    | err => exact absurd hl removeLoop_no_err
    | panic => rw [hl] at hok; exact absurd rfl hok
    | ok b' =>
      have g := Gone.loop hp (Gone.refl s b) hl
      refine ⟨_, ?_, ⟨g.objs, g.other, g.miss, g.hit, g.cut⟩⟩
      intro p
      simp only [List.append_nil, List.mem_reverse, List.mem_map, List.mem_filterMap, mem_arrange]
      constructor
      · rintro ⟨a, ⟨i, -, h1⟩, h2⟩
        exact ⟨i, a, h1, h2⟩
      · rintro ⟨i, a, h1, h2⟩
        exact ⟨a, ⟨i, (AMap.mem_keys m i).2 (by simp [h1]), h1⟩, h2⟩

theorem remove_ok {b : State} {s : Nat} {order : List Nat} (hp : ∀ p a, b.byProc p = some a → (b.heap a).procedure = p)
    (hn : ∀ p a, b.byProc p = some a → (b.heap a).callees.Nodup) : (removeSession b s order).2 ≠ .panic := by
  simp only [removeSession]
  cases b.sessions s with
  | none => simp
  | some d =>
    simp only
    obtain ⟨b', hb⟩ := removeLoop_ok (as := (arrange order ((b.bySession s).getD []).keys).filterMap ((b.bySession s).getD []).get)
      hp hn (Gone.refl s b)
    rw [hb]
    simp

end Wamp.Dealer
