import Verif.Lemmas.DealerUse
/-!
# What holds of registrations after every history, also after those that provoke faults
-/
namespace Wamp.Dealer

/-- Sessions only have handles of registrations that they registered, and the registrants of a registration that can be found by its
procedure are sessions that hold it. -/
structure WInv (h : List Event) (b : State) : Prop where
  ses : ∀ s m i a, b.bySession s = some m → m.get i = some a → ∃ e ∈ h, registeredAs s (b.heap a).procedure i e
  who : ∀ p a s, b.byProc p = some a → s ∈ (b.heap a).registrants →
    (∃ m, b.bySession s = some m ∧ m.get (b.heap a).id = some a) ∧ holds h s p (b.heap a).id

theorem init_winv : WInv [] init := by
  refine ⟨?_, ?_⟩ <;> simp [init, AMap.get, FMap.empty]

theorem WInv.quiet {h : List Event} {b b' : State} (hi : WInv h b) {e : Event} (he : ∀ s p i, holds h s p i → holds (e :: h) s p i)
    (ho : ∀ a, (b'.heap a).id = (b.heap a).id ∧ (b'.heap a).procedure = (b.heap a).procedure ∧
      ∀ s ∈ (b'.heap a).registrants, s ∈ (b.heap a).registrants)
    (hb : ∀ p a, b'.byProc p = some a → b.byProc p = some a)
    (h5 : ∀ s m i a, b'.bySession s = some m → m.get i = some a → ∃ m0, b.bySession s = some m0 ∧ m0.get i = some a)
    (h6 : ∀ s m i a, b.bySession s = some m → m.get i = some a → ∃ m', b'.bySession s = some m' ∧ m'.get i = some a) : WInv (e :: h) b' := by
  refine ⟨?_, ?_⟩
  · intro s m i a h1 h2
    obtain ⟨m0, h3, h4⟩ := h5 s m i a h1 h2
    obtain ⟨e', h7, h8⟩ := hi.ses s m0 i a h3 h4
    rw [(ho a).2.1]
    exact ⟨e', List.mem_cons_of_mem _ h7, h8⟩
  · intro p a s h1 h2
    obtain ⟨⟨m, h3, h4⟩, h7⟩ := hi.who p a s (hb p a h1) ((ho a).2.2 s h2)
    rw [(ho a).1]
    exact ⟨h6 s m _ a h3 h4, he _ _ _ h7⟩

theorem WInv.same {h : List Event} {b : State} (hi : WInv h b) {e : Event} (he : ∀ s p i, holds h s p i → holds (e :: h) s p i) : WInv (e :: h) b :=
  hi.quiet he (fun _ => ⟨rfl, rfl, fun _ h => h⟩) (fun _ _ h => h) (fun _ m _ _ h1 h2 => ⟨m, h1, h2⟩) fun _ m _ _ h1 h2 => ⟨m, h1, h2⟩

theorem WInv.join {h : List Event} {b : State} (hR : RInv h b) (hi : WInv h b) {s q : Nat} {o : GoMap} {p0 : Str} {a : Nat} {m : AMap Nat Nat}
    (hm : b.bySession s = some m) (ha : b.byProc p0 = some a) (order : List Str) (rnd q' s' : Nat) :
    WInv (⟨.receive s (.register q o p0) order rnd, .ok (.msg (.registered q' (b.heap a).id) s')⟩ :: h) { b with
      heap := hset b.heap a { b.heap a with
        registrants := if (b.heap a).registrants.contains s then (b.heap a).registrants else (b.heap a).registrants ++ [s]
        callees := (b.heap a).callees ++ [s] }
      bySession := b.bySession.set s (m.set (b.heap a).id a) } := by
  have hreg : ∀ x, x ∈ (if (b.heap a).registrants.contains s then (b.heap a).registrants else (b.heap a).registrants ++ [s]) →
      x ∈ (b.heap a).registrants ∨ x = s := by
    intro x hx
    split at hx
    · exact .inl hx
    · rcases List.mem_append.1 hx with h | h
      · exact .inl h
      · exact .inr (List.mem_singleton.1 h)
  have ho := hset_join b a s
  obtain ⟨han, hap⟩ := hR.byp p0 a ha
  generalize hH : hset b.heap a { b.heap a with
        registrants := if (b.heap a).registrants.contains s then (b.heap a).registrants else (b.heap a).registrants ++ [s]
        callees := (b.heap a).callees ++ [s] } = H at ho
  have hr : ∀ x y, y ∈ (H x).registrants → y ∈ (b.heap x).registrants ∨ (x = a ∧ y = s) := by
    intro x y hy
    rw [← hH] at hy
    simp only [hset] at hy
    split at hy
    · rename_i hx
      subst hx
      exact (hreg y hy).imp_right fun h => ⟨rfl, h⟩
    · exact .inl hy
  refine ⟨?_, ?_⟩
  · intro s1 m1 i x h1 h2
    simp only [(ho x).2]
    simp only [FMap.set_apply] at h1
    split at h1
    · rename_i hs
      subst hs
      cases h1
      rw [AMap.get_set] at h2
      split at h2
      · rename_i hid
        subst hid
        cases h2
        exact ⟨_, List.mem_cons_self .., q, o, order, rnd, q', s', by rw [hap]⟩
      · obtain ⟨e', h7, h8⟩ := hi.ses _ _ _ _ hm h2
        exact ⟨e', List.mem_cons_of_mem _ h7, h8⟩
    · obtain ⟨e', h7, h8⟩ := hi.ses _ _ _ _ h1 h2
      exact ⟨e', List.mem_cons_of_mem _ h7, h8⟩
  · intro p x y h1 h2
    simp only [(ho x).1]
    simp only at h1 h2
    by_cases hys : y = s
    · subst hys
      by_cases hxa : x = a
      · subst hxa
        refine ⟨⟨_, FMap.set_same .., by simp [AMap.get_set]⟩, .inl ⟨rfl, ?_, rfl⟩⟩
        exact hap.symm.trans (hR.byp p x h1).2
      · rcases hr x y h2 with h3 | ⟨h3, -⟩
        · obtain ⟨⟨m1, h4, h5⟩, h6⟩ := hi.who p x y h1 h3
          rw [hm] at h4
          cases h4
          refine ⟨⟨_, FMap.set_same .., ?_⟩, .inr h6⟩
          rw [AMap.get_set]
          split
          · rename_i hid
            exact absurd (hR.inj x (hR.byp p x h1).1 a han hid) hxa
          · exact h5
        · exact absurd h3 hxa
    · rcases hr x y h2 with h3 | ⟨-, h3⟩
      · obtain ⟨⟨m1, h4, h5⟩, h6⟩ := hi.who p x y h1 h3
        refine ⟨⟨m1, ?_, h5⟩, .inr h6⟩
        simp only [FMap.set_apply, hys, if_false]
        exact h4
      · exact absurd h3 hys

theorem WInv.create {h : List Event} {b : State} (hR : RInv h b) (hi : WInv h b) {s q i : Nat} {o : GoMap} {p0 : Str} {m : AMap Nat Nat}
    (hm : b.bySession s = some m) (hid : b.idGen < i) (g : Nat) (t c : AMap Str Nat) (pol mt : Str) (order : List Str) (rnd q' s' : Nat) :
    WInv (⟨.receive s (.register q o p0) order rnd, .ok (.msg (.registered q' i) s')⟩ :: h) { b with
      heap := hset b.heap b.next ⟨i, p0, [s], pol, 0, [s], mt⟩
      next := b.next + 1
      idGen := g
      tree := t
      wc := c
      byProc := b.byProc.set p0 b.next
      bySession := b.bySession.set s (m.set i b.next) } := by
  have hold : ∀ x < b.next, hset b.heap b.next ⟨i, p0, [s], pol, 0, [s], mt⟩ x = b.heap x := by
    intro x hx; simp only [hset]; rw [if_neg (by omega)]
  have hnew : hset b.heap b.next ⟨i, p0, [s], pol, 0, [s], mt⟩ b.next = ⟨i, p0, [s], pol, 0, [s], mt⟩ := by simp [hset]
  refine ⟨?_, ?_⟩
  · intro s1 m1 j x h1 h2
    simp only [FMap.set_apply] at h1
    split at h1
    · rename_i hs
      subst hs
      cases h1
      rw [AMap.get_set] at h2
      split at h2
      · rename_i hid
        subst hid
        cases h2
        simp only [hnew]
        exact ⟨_, List.mem_cons_self .., q, o, order, rnd, q', s', rfl⟩
      · simp only [hold x (hR.sesp _ _ _ _ hm h2).1]
        obtain ⟨e', h7, h8⟩ := hi.ses _ _ _ _ hm h2
        exact ⟨e', List.mem_cons_of_mem _ h7, h8⟩
    · simp only [hold x (hR.sesp _ _ _ _ h1 h2).1]
      obtain ⟨e', h7, h8⟩ := hi.ses _ _ _ _ h1 h2
      exact ⟨e', List.mem_cons_of_mem _ h7, h8⟩
  · intro p x y h1 h2
    simp only [FMap.set_apply] at h1
    split at h1
    · rename_i hp
      subst hp
      cases h1
      simp only [hnew, List.mem_singleton] at h2 ⊢
      subst h2
      exact ⟨⟨_, FMap.set_same .., by simp [AMap.get_set]⟩, .inl ⟨rfl, rfl, rfl⟩⟩
    · have hx := (hR.byp p x h1).1
      simp only [hold x hx] at h2 ⊢
      obtain ⟨⟨m1, h4, h5⟩, h6⟩ := hi.who p x y h1 h2
      refine ⟨?_, .inr h6⟩
      by_cases hys : y = s
      · subst hys
        rw [hm] at h4
        cases h4
        refine ⟨_, FMap.set_same .., ?_⟩
        rw [AMap.get_set, if_neg]
        · exact h5
        · have := (hR.obj x hx).2
          omega
      · exact ⟨m1, by simp only [FMap.set_apply, hys, if_false]; exact h4, h5⟩

theorem WInv.unreg {h : List Event} {b : State} (hR : RInv h b) (hi : WInv h b) {s q i : Nat}
    (hok : ∃ x, (unregister b s q i).2 = .ok x) (order : List Str) (rnd : Nat) (x : Out) :
    WInv (⟨.receive s (.unregister q i) order rnd, .ok x⟩ :: h) (unregister b s q i).1 := by
  obtain ⟨x0, hok⟩ := hok
  simp only [unregister] at hok ⊢
  cases hm : b.bySession s with
  | none => rw [hm] at hok; cases hok
  | some m =>
    rw [hm] at hok
    simp only at hok ⊢
    split at hok
    · cases hok
    · rename_i hemp
      rw [if_neg hemp]
      cases hg : m.get i with
      | none => rw [hg] at hok; cases hok
      | some a =>
        simp only
        obtain ⟨han, haid⟩ := hR.sesp s m i a hm hg
        have ho : ∀ y, (hset b.heap a { b.heap a with registrants := (b.heap a).registrants.filter (· ≠ s) } y).id = (b.heap y).id ∧
            (hset b.heap a { b.heap a with registrants := (b.heap a).registrants.filter (· ≠ s) } y).procedure = (b.heap y).procedure ∧
            ∀ z ∈ (hset b.heap a { b.heap a with registrants := (b.heap a).registrants.filter (· ≠ s) } y).registrants,
              z ∈ (b.heap y).registrants ∧ ¬(y = a ∧ z = s) := by
          intro y
          simp only [hset]
          split
          · rename_i hy
            subst hy
            refine ⟨rfl, rfl, fun z hz => ?_⟩
            simp only [List.mem_filter, decide_eq_true_eq] at hz
            exact ⟨hz.1, fun h => hz.2 h.2⟩
          · rename_i hy
            exact ⟨rfl, rfl, fun z hz => ⟨hz, fun h => hy h.1⟩⟩
        generalize hset b.heap a { b.heap a with registrants := (b.heap a).registrants.filter (· ≠ s) } = H at ho
        have hlive : ∀ p y z, b.byProc p = some y → z ∈ (b.heap y).registrants → ¬(y = a ∧ z = s) →
            holds (⟨.receive s (.unregister q i) order rnd, .ok x⟩ :: h) z p (b.heap y).id := by
          intro p y z h1 h2 h3
          refine ⟨?_, (hi.who p y z h1 h2).2⟩
          rintro ⟨rfl, h5⟩
          exact h3 ⟨hR.inj y (hR.byp p y h1).1 a han (by rw [haid, h5]), rfl⟩
        split
        · refine ⟨?_, ?_⟩
          · intro s1 m1 j y h1 h2
            simp only [(ho y).2.1]
            simp only [FMap.set_apply] at h1
            split at h1
            · rename_i hs
              subst hs
              cases h1
              rw [AMap.get_del] at h2
              split at h2
              · cases h2
              · obtain ⟨e', h7, h8⟩ := hi.ses _ _ _ _ hm h2
                exact ⟨e', List.mem_cons_of_mem _ h7, h8⟩
            · obtain ⟨e', h7, h8⟩ := hi.ses _ _ _ _ h1 h2
              exact ⟨e', List.mem_cons_of_mem _ h7, h8⟩
          · intro p y z h1 h2
            simp only [(ho y).1]
            simp only at h1 h2
            obtain ⟨h2, h3⟩ := (ho y).2.2 z h2
            have h1 : b.byProc p = some y := by
              simp only [FMap.del_apply] at h1
              split at h1
              · cases h1
              · exact h1
            refine ⟨?_, hlive p y z h1 h2 h3⟩
            obtain ⟨⟨m1, h4, h5⟩, -⟩ := hi.who p y z h1 h2
            by_cases hz : z = s
            · subst hz
              rw [hm] at h4
              cases h4
              refine ⟨_, FMap.set_same .., ?_⟩
              rw [AMap.get_del, if_neg]
              · exact h5
              · intro hid
                exact h3 ⟨hR.inj y (hR.byp p y h1).1 a han (by rw [haid, hid]), rfl⟩
            · exact ⟨m1, by simp only [FMap.set_apply, hz, if_false]; exact h4, h5⟩
        · refine ⟨?_, ?_⟩
          · intro s1 m1 j y h1 h2
            simp only [(ho y).2.1]
            obtain ⟨e', h7, h8⟩ := hi.ses _ _ _ _ h1 h2
            exact ⟨e', List.mem_cons_of_mem _ h7, h8⟩
          · intro p y z h1 h2
            simp only [(ho y).1]
            simp only at h1 h2
            obtain ⟨h2, h3⟩ := (ho y).2.2 z h2
            exact ⟨(hi.who p y z h1 h2).1, hlive p y z h1 h2 h3⟩

theorem WInv.removed {h : List Event} {b : State} (hR : RInv h b) (hi : WInv h b) {s : Nat} {order : List Nat} {m : AMap Nat Nat}
    (hm : b.bySession s = some m) {T : List Str} (hT : ∀ p, p ∈ T ↔ ∃ i a, m.get i = some a ∧ (b.heap a).procedure = p)
    {b' : State} (g : Gone s T b b') (f : Frame b b') (hb : b'.bySession = b.bySession.del s) (x : Out) :
    WInv (⟨.remove s order, .ok x⟩ :: h) b' := by
  refine ⟨?_, ?_⟩
  · intro s1 m1 j y h1 h2
    rw [hb, FMap.del_apply] at h1
    rw [(f.objs y).2.1]
    split at h1
    · cases h1
    · obtain ⟨e', h7, h8⟩ := hi.ses _ _ _ _ h1 h2
      exact ⟨e', List.mem_cons_of_mem _ h7, h8⟩
  · intro p y z h1 h2
    have h0 := f.byp p y h1
    rw [(f.objs y).1]
    have key : z ∈ (b.heap y).registrants ∧ z ≠ s := by
      by_cases hp : p ∈ T
      · rw [(g.hit p y hp h0).1] at h2
        simpa using h2
      · have hh : b'.heap y = b.heap y := by
          refine g.other y fun p' hp' h' => ?_
          have : p' = p := (hR.byp p' y h').2.symm.trans (hR.byp p y h0).2
          exact hp (this ▸ hp')
        rw [hh] at h2
        refine ⟨h2, ?_⟩
        rintro rfl
        obtain ⟨⟨m1, h4, h5⟩, -⟩ := hi.who p y z h0 h2
        rw [hm] at h4
        cases h4
        exact hp ((hT p).2 ⟨_, _, h5, (hR.byp p y h0).2⟩)
    obtain ⟨⟨m1, h4, h5⟩, h6⟩ := hi.who p y z h0 key.1
    refine ⟨⟨m1, ?_, h5⟩, fun h => key.2 h.symm, h6⟩
    rw [hb, FMap.del_apply, if_neg key.2]
    exact h4

theorem step_winv {w : Str → Str → Bool} {h : List Event} {b : State} (hS : SInv h b) (hR : RInv h b) (hi : WInv h b) (hlen : h.length < maxID)
    (op : Op) (hnp : (step w b op).2 ≠ .panic) : WInv (⟨op, (step w b op).2⟩ :: h) (step w b op).1 := by
  have hg : nextID b.idGen = (b.idGen + 1, b.idGen + 1) := nextID_small (Nat.lt_of_le_of_lt hR.gen hlen)
  cases op with
  | add d =>
    simp only [step, addSession]
    split
    · exact hi.same fun _ _ _ h => h
    · rename_i hno
      refine hi.quiet (fun _ _ _ h => h) (fun _ => ⟨rfl, rfl, fun _ h => h⟩) (fun _ _ h => h) ?_ ?_
      · intro s m i a h1 h2
        simp only [FMap.set_apply] at h1
        split at h1
        · cases h1; cases h2
        · exact ⟨m, h1, h2⟩
      · intro s m i a hs hg
        simp only [FMap.set_apply]
        rw [if_neg]
        · exact ⟨m, hs, hg⟩
        · rintro rfl
          have := hS.bys d.id
          rw [hs, ← hS.sess] at this
          exact hno this.symm
  | has p => exact hi.same fun _ _ _ h => h
  | disclose on =>
    exact hi.quiet (fun _ _ _ h => h) (fun _ => ⟨rfl, rfl, fun _ h => h⟩) (fun _ _ h => h)
      (fun _ m _ _ h1 h2 => ⟨m, h1, h2⟩) fun _ m _ _ h1 h2 => ⟨m, h1, h2⟩
  | remove s order =>
    simp only [step] at hnp ⊢
    rcases remove_cases b s order with ⟨-, e⟩ | ⟨-, e⟩ | ⟨hs, e, f, -, f2⟩
    · rw [e]; exact hi.same fun _ _ _ h => h
    · rw [e] at hnp; exact absurd rfl hnp
    · have hbs := hS.bys s
      rw [← hS.sess, hs] at hbs
      obtain ⟨m, hm⟩ := Option.isSome_iff_exists.1 hbs
      have hnp' : (removeSession b s order).2 ≠ .panic := by rw [e]; simp
      obtain ⟨T, hT, g⟩ := remove_spec (order := order) (fun p a h => (hR.byp p a h).2) hm hs hnp'
      rw [e]
      exact hi.removed hR hm hT g f f2 _
  | receive s m order rnd =>
    simp only [step] at hnp ⊢
    cases m with
    | call r o p0 a k bin =>
      simp only [receive] at hnp ⊢
      have hob : ∀ a nc a', ∀ b' : State, b'.heap = hset b.heap a { b.heap a with nextCallee := nc } →
          (b'.heap a').id = (b.heap a').id ∧ (b'.heap a').procedure = (b.heap a').procedure ∧
          ∀ s ∈ (b'.heap a').registrants, s ∈ (b.heap a').registrants := by
        intro a nc a' b' e
        obtain ⟨e1, e2, e3, e4, e5, e6⟩ := hset_next b a nc a'
        rw [e]
        exact ⟨e1, e2, fun s hs => by rw [e4] at hs; exact hs⟩
      rcases call_cases w b s r o p0 a k bin order rnd with ⟨-, e⟩ | ⟨e, -⟩ | ⟨a', callee, nc, inv, -, -, -, e, -⟩
      · rw [e]; exact hi.same fun _ _ _ h => h
      · rw [e] at hnp; exact absurd rfl hnp
      · generalize Res.map (fun x => Out.msg x.1 x.2) (call w b s r o p0 a k bin order rnd).2 = res
        rcases e with ⟨-, -, e⟩ | ⟨-, -, e⟩ <;> rw [e]
        · exact hi.quiet (fun _ _ _ h => h) (fun x => hob a' nc x _ rfl) (fun _ _ h => h)
            (fun _ m _ _ h1 h2 => ⟨m, h1, h2⟩) fun _ m _ _ h1 h2 => ⟨m, h1, h2⟩
        · exact hi.quiet (fun _ _ _ h => h) (fun x => hob a' nc x _ rfl) (fun _ _ h => h)
            (fun _ m _ _ h1 h2 => ⟨m, h1, h2⟩) fun _ m _ _ h1 h2 => ⟨m, h1, h2⟩
    | yield r o a k bin =>
      simp only [receive]
      generalize hres : Res.map (fun x => Out.msg x.1 x.2) (yield b r o a k bin).2 = res
      rcases yield_cases b r o a k bin with ⟨-, e⟩ | ⟨p, -, e, -⟩
      · rw [e]; exact hi.same fun _ _ _ h => h
      · rw [e]
        split
        · exact hi.same fun _ _ _ h => h
        · exact hi.quiet (fun _ _ _ h => h) (fun _ => ⟨rfl, rfl, fun _ h => h⟩) (fun _ _ h => h)
            (fun _ m _ _ h1 h2 => ⟨m, h1, h2⟩) fun _ m _ _ h1 h2 => ⟨m, h1, h2⟩
    | error t r d u a k =>
      simp only [receive]
      rcases error_cases b t r d u a k with ⟨-, e⟩ | ⟨-, p, -, e⟩ <;> rw [e]
      · exact hi.same fun _ _ _ h => h
      · exact hi.quiet (fun _ _ _ h => h) (fun _ => ⟨rfl, rfl, fun _ h => h⟩) (fun _ _ h => h)
            (fun _ m _ _ h1 h2 => ⟨m, h1, h2⟩) fun _ m _ _ h1 h2 => ⟨m, h1, h2⟩
    | register r o p0 =>
      simp only [receive]
      rcases register_cases b s r o p0 with ⟨-, e⟩ | ⟨m, hm, ⟨a, -, -, e⟩ | ⟨a, ha, -, e⟩ | ⟨hp, e⟩⟩
      · rw [e]; exact hi.same fun _ _ _ h => h
      · rw [e]; exact hi.same fun _ _ _ h => h
      · rw [e]; exact hi.join hR hm ha ..
      · rw [e, hg]; exact hi.create hR hm (Nat.lt_succ_self _) ..
    | unregister r i =>
      simp only [receive] at hnp ⊢
      rcases unregister_cases b s r i with e | e | ⟨m, a, hm, -, e, -⟩
      · rw [e]; exact hi.same fun _ _ _ h => h
      · rw [e] at hnp; exact absurd rfl hnp
      · rw [e]
        exact hi.unreg hR ⟨_, e⟩ ..
    | _ => exact hi.same fun _ _ _ h => h

theorem hist_winv {w : Str → Str → Bool} {h : List Event} {b : State} (hh : Hist w h b) (hlen : h.length ≤ maxID) : WInv h b := by
  induction hh with
  | new => exact init_winv
  | step op hh hnp ih =>
    simp only [List.length_cons] at hlen
    exact step_winv (hist_sinv hh) (hist_rinv hh (by omega)) (ih (by omega)) (by omega) op hnp

end Wamp.Dealer
