import Verif.Spec.SyncMap
import Verif.Lemmas.Base
/-!
# C159: the typed map is a map
-/
namespace Wamp.SyncMap
variable {K V X Y : Type} [DecidableEq X] [DecidableEq K]

/-- State and history. -/
private structure Inv (gk : GoTy K X) (gv : GoTy V Y) (now : K → Option V) (m : State X Y) : Prop where
  nodup : m.keys.Nodup
  get : ∀ k, gk.assert (gk.box k) = some k → m.get (gk.box k) = (now k).map gv.box
  key : ∀ a b, m.get a = some b → ∃ k v, a = gk.box k ∧ gk.assert a = some k ∧ b = gv.box v ∧ gv.assert b = some v
  good : ∀ k v, now k = some v → gk.assert (gk.box k) = some k ∧ gv.assert (gv.box v) = some v

private theorem box_inj {gk : GoTy K X} {k k' : K} (h : gk.assert (gk.box k) = some k) (h' : gk.assert (gk.box k') = some k')
    (e : gk.box k = gk.box k') : k = k' := by
  rw [e, h'] at h; exact (Option.some.inj h).symm

private theorem inv_del {gk : GoTy K X} {gv : GoTy V Y} {now : K → Option V} {m : State X Y} (i : Inv gk gv now m) (k : K)
    (hk : gk.assert (gk.box k) = some k) : Inv gk gv (fun k' => if k = k' then none else now k') (m.del (gk.box k)) where
  nodup := AMap.nodup_del i.nodup _
  get k' hk' := by
    rw [AMap.get_del]
    by_cases h : k = k'
    · subst h; simp
    · rw [if_neg (fun e => h (box_inj hk hk' e.symm)), if_neg h, i.get k' hk']
  key a b h := by
    rw [AMap.get_del] at h
    split at h
    · cases h
    · exact i.key a b h
  good k' v h := by
    split at h
    · cases h
    · exact i.good k' v h

private theorem inv_set {gk : GoTy K X} {gv : GoTy V Y} {now : K → Option V} {m : State X Y} (i : Inv gk gv now m) (k : K) (v : V)
    (hk : gk.assert (gk.box k) = some k) (hv : gv.assert (gv.box v) = some v) :
    Inv gk gv (fun k' => if k = k' then some v else now k') (m.set (gk.box k) (gv.box v)) where
  nodup := AMap.nodup_set i.nodup _ _
  get k' hk' := by
    rw [AMap.get_set]
    by_cases h : k = k'
    · subst h; simp
    · rw [if_neg (fun e => h (box_inj hk hk' e.symm)), if_neg h, i.get k' hk']
  key a b h := by
    rw [AMap.get_set] at h
    split at h
    · rename_i e; subst e; cases h; exact ⟨k, v, rfl, hk, rfl, hv⟩
    · exact i.key a b h
  good k' w h := by
    split at h
    · rename_i e; subst e; cases h; exact ⟨hk, hv⟩
    · exact i.good k' w h

private theorem hist_inv {gk : GoTy K X} {gv : GoTy V Y} {h : List (Op K V X)} {m : State X Y} (hh : Hist gk gv h m)
    (hn : ∀ op ∈ h, op.NonNil gk gv) : Inv gk gv (fun k => held k h) m := by
  induction hh with
  | new => exact ⟨List.nodup_nil, fun _ _ => rfl, fun _ _ h => (by cases h), fun _ _ h => (by cases h)⟩
  | @step h m op hh ih =>
    have i := ih fun o ho => hn o (List.mem_cons_of_mem _ ho)
    have ho := hn op (List.mem_cons_self ..)
    cases op with
    | delete k => simpa only [held, step] using inv_del i k ho
    | load k => simp only [held, step]; split <;> exact i
    | range f o => exact i
    | store k v => simpa only [held, step] using inv_set i k v ho.1 ho.2
    | loadAndDelete k =>
      have := inv_del i k ho
      simp only [held, step]
      split
      · rename_i hg
        rw [i.get k ho] at hg
        have h0 : held k h = none := by cases hx : held k h <;> simp_all
        have : (fun k' => if k = k' then none else held k' h) = fun k' => held k' h := by
          funext k'; split
          · rename_i e; subst e; exact h0.symm
          · rfl
        rw [this]; exact i
      · exact this
    | loadOrStore k v =>
      simp only [held, step]
      split
      · rename_i a hg
        rw [i.get k ho.1] at hg
        obtain ⟨w, hw⟩ : ∃ w, held k h = some w := by cases hx : held k h <;> simp_all
        have : (fun k' => if k = k' then some ((held k' h).getD v) else held k' h) = fun k' => held k' h := by
          funext k'; split
          · rename_i e; subst e; rw [hw]; rfl
          · rfl
        rw [this]; exact i
      · rename_i hg
        rw [i.get k ho.1] at hg
        have h0 : held k h = none := by cases hx : held k h <;> simp_all
        have : (fun k' => if k = k' then some ((held k' h).getD v) else held k' h) = fun k' => if k = k' then some v else held k' h := by
          funext k'; split
          · rename_i e; subst e; rw [h0]; rfl
          · rfl
        rw [this]; exact inv_set i k v ho.1 ho.2

private theorem visit_spec {gk : GoTy K X} {gv : GoTy V Y} {now : K → Option V} {m : State X Y} (i : Inv gk gv now m) (f : K → V → Bool) :
    ∀ es : List (Option X × Option Y), (es.map Prod.fst).Nodup → (∀ a b, (a, b) ∈ es → m.get a = some b) →
    ∃ l, visit gk gv f es = .ok l ∧ (l.map Prod.fst).Nodup ∧ (∀ k v, (k, v) ∈ l → now k = some v ∧ (gk.box k, gv.box v) ∈ es) ∧
      ((∀ p ∈ l, f p.1 p.2 = true) ∧ (∀ k v, (gk.box k, gv.box v) ∈ es → now k = some v → (k, v) ∈ l) ∨
        ∃ before k v, l = before ++ [(k, v)] ∧ (∀ p ∈ before, f p.1 p.2 = true) ∧ f k v = false) := by
  intro es
  induction es with
  | nil => intro _ _; exact ⟨[], rfl, List.nodup_nil, fun _ _ h => (by cases h), .inl ⟨fun _ h => (by cases h), fun _ _ h => (by cases h)⟩⟩
  | cons e es ih =>
    intro hnd hm
    obtain ⟨a, b⟩ := e
    obtain ⟨k, v, rfl, hk, rfl, hv⟩ := i.key a b (hm a b (List.mem_cons_self ..))
    simp only [List.map_cons, List.nodup_cons] at hnd
    obtain ⟨l, h1, h2, h3, h4⟩ := ih hnd.2 fun a b h => hm a b (List.mem_cons_of_mem _ h)
    have hnow : now k = some v := by
      have h5 := i.get k hk
      rw [hm _ _ (List.mem_cons_self ..)] at h5
      cases hx : now k with
      | none => rw [hx] at h5; cases h5
      | some w =>
        rw [hx] at h5
        have h6 := (i.good k w hx).2
        rw [← Option.some.inj h5, hv] at h6
        rw [Option.some.inj h6]
    simp only [visit, asserted, hk, hv, Res.orPanic, Res.bind_ok]
    by_cases hf : f k v = true
    · rw [if_pos hf, h1]
      refine ⟨(k, v) :: l, rfl, ?_, ?_, ?_⟩
      · simp only [List.map_cons, List.nodup_cons]
        refine ⟨fun hx => hnd.1 ?_, h2⟩
        obtain ⟨⟨k', v'⟩, hp, rfl⟩ := List.mem_map.1 hx
        exact List.mem_map.2 ⟨_, (h3 _ _ hp).2, rfl⟩
      · intro k' v' hx
        rcases List.mem_cons.1 hx with e | hx
        · cases e; exact ⟨hnow, List.mem_cons_self ..⟩
        · exact ⟨(h3 _ _ hx).1, List.mem_cons_of_mem _ (h3 _ _ hx).2⟩
      · rcases h4 with ⟨h5, h6⟩ | ⟨before, k', v', rfl, h5, h6⟩
        · refine .inl ⟨fun p hp => ?_, fun k' v' hx hn => ?_⟩
          · rcases List.mem_cons.1 hp with rfl | hp
            · exact hf
            · exact h5 p hp
          · rcases List.mem_cons.1 hx with e | hx
            · have ek : gk.box k' = gk.box k := congrArg Prod.fst e
              have := box_inj (i.good k' v' hn).1 hk ek
              subst this
              rw [hnow] at hn; cases hn
              exact List.mem_cons_self ..
            · exact List.mem_cons_of_mem _ (h6 k' v' hx hn)
        · refine .inr ⟨(k, v) :: before, k', v', rfl, fun p hp => ?_, h6⟩
          rcases List.mem_cons.1 hp with rfl | hp
          · exact hf
          · exact h5 p hp
    · rw [if_neg hf]
      refine ⟨[(k, v)], rfl, by simp, ?_, .inr ⟨[], k, v, rfl, fun _ h => (by cases h), by simpa using hf⟩⟩
      intro k' v' hx
      simp only [List.mem_singleton] at hx
      cases hx
      exact ⟨hnow, List.mem_cons_self ..⟩

private theorem filterMap_fst (m : State X Y) : ∀ (ks : List (Option X)), (∀ a ∈ ks, a ∈ m.keys) →
    (ks.filterMap fun a => (m.get a).map fun b => (a, b)).map Prod.fst = ks
  | [], _ => rfl
  | a :: ks, h => by
    have ha := (AMap.mem_keys m a).1 (h a (List.mem_cons_self ..))
    obtain ⟨b, hb⟩ := Option.isSome_iff_exists.1 ha
    simp only [List.filterMap_cons, hb, Option.map_some, List.map_cons]
    rw [filterMap_fst m ks fun x hx => h x (List.mem_cons_of_mem _ hx)]

/-- **C159** (partial). After every history of calls without nil interfaces: the next such call does not panic, and it returns what a map
returns that holds, for every key, the value stored last and not deleted since.  What is missing are nil interfaces (`C159_nil_refuted`). -/
theorem C159_map_partial {gk : GoTy K X} {gv : GoTy V Y} {h : List (Op K V X)} {m : State X Y} (hh : Hist gk gv h m)
    (hn : ∀ op ∈ h, op.NonNil gk gv) (op : Op K V X) (ho : op.NonNil gk gv) :
    ∃ r, (step gk gv m op).2 = .ok r ∧ Answers (fun k => held k h) op r := by
  have i := hist_inv hh hn
  cases op with
  | delete k => exact ⟨_, rfl, .delete k⟩
  | store k v => exact ⟨_, rfl, .store k v⟩
  | load k =>
    have hg := i.get k ho
    simp only [step, hg]
    have := Answers.load (X := X) (now := fun k => held k h) k
    cases hx : held k h with
    | none => rw [hx] at this; exact ⟨_, rfl, this⟩
    | some v =>
      rw [hx] at this
      simp only [Option.map_some, asserted, (i.good k v hx).2, Res.orPanic, Res.map_ok]
      exact ⟨_, rfl, this⟩
  | loadAndDelete k =>
    have hg := i.get k ho
    simp only [step, hg]
    have := Answers.loadAndDelete (X := X) (now := fun k => held k h) k
    cases hx : held k h with
    | none => rw [hx] at this; exact ⟨_, rfl, this⟩
    | some v =>
      rw [hx] at this
      simp only [Option.map_some, asserted, (i.good k v hx).2, Res.orPanic, Res.map_ok]
      exact ⟨_, rfl, this⟩
  | loadOrStore k v =>
    have hg := i.get k ho.1
    simp only [step, hg]
    cases hx : held k h with
    | none =>
      simp only [Option.map_none, asserted, ho.2, Res.orPanic, Res.map_ok]
      exact ⟨_, rfl, .fresh k v hx⟩
    | some w =>
      simp only [Option.map_some, asserted, (i.good k w hx).2, Res.orPanic, Res.map_ok]
      exact ⟨_, rfl, .old k v w hx⟩
  | range f order =>
    have hfst := filterMap_fst m (arrange order m.keys) fun a ha => (mem_arrange order m.keys a).1 ha
    obtain ⟨l, h1, h2, h3, h4⟩ := visit_spec i f (entries order m) (by
        rw [entries, hfst]; exact nodup_arrange order i.nodup) (by
        intro a b hab
        obtain ⟨a', ha', e⟩ := List.mem_filterMap.1 hab
        cases hg : m.get a' with
        | none => rw [hg] at e; cases e
        | some b' => rw [hg] at e; cases e; exact hg)
    simp only [step, h1, Res.map_ok]
    refine ⟨_, rfl, .range f order l h2 (fun k v hx => (h3 k v hx).1) ?_⟩
    rcases h4 with ⟨h5, h6⟩ | h4
    · refine .inl ⟨h5, fun k v hx => h6 k v ?_ hx⟩
      have hk := i.get k (i.good k v hx).1
      simp only [hx, Option.map_some] at hk
      exact List.mem_filterMap.2 ⟨gk.box k, (mem_arrange order m.keys _).2 ((AMap.mem_keys m _).2 (by rw [hk]; rfl)), by rw [hk]; rfl⟩
    · exact .inr h4

/-- **C159** for types that are no interfaces, like all those in this library (session.go:15-25): no condition. -/
theorem C159_concrete {K V : Type} [DecidableEq K] {h : List (Op K V K)} {m : State K V} (hh : Hist (concrete K) (concrete V) h m) (op : Op K V K) :
    ∃ r, (step (concrete K) (concrete V) m op).2 = .ok r ∧ Answers (fun k => held k h) op r := by
  have all : ∀ op : Op K V K, op.NonNil (concrete K) (concrete V) := by
    intro op; cases op <;> simp [Op.NonNil, concrete]
  exact C159_map_partial hh (fun o _ => all o) op (all op)

/-- **C159 is false** for interface types: after a nil was stored, `Load`, `LoadAndDelete`, `LoadOrStore` and `Range` panic; and `LoadOrStore` of a
nil itself panics, although it stores it. -/
theorem C159_nil_refuted (k : K) (v : Option Y) (f : K → Option Y → Bool) :
    ∃ m, Hist (concrete K) (iface Y) [Op.store k none] m ∧
      (step (concrete K) (iface Y) m (.load k)).2 = .panic ∧ (step (concrete K) (iface Y) m (.loadAndDelete k)).2 = .panic ∧
      (step (concrete K) (iface Y) m (.loadOrStore k v)).2 = .panic ∧ (step (concrete K) (iface Y) m (.range f [])).2 = .panic ∧
      (step (concrete K) (iface Y) [] (.loadOrStore k none)).2 = .panic ∧ (step (concrete K) (iface Y) [] (.loadOrStore k none)).1 = m := by
  refine ⟨_, .step _ .new, ?_, ?_, ?_, ?_, ?_, ?_⟩
  · simp [step, AMap.set, AMap.get, concrete, iface, asserted, Res.orPanic]
  · simp [step, AMap.set, AMap.get, concrete, iface, asserted, Res.orPanic]
  · simp [step, AMap.set, AMap.get, concrete, iface, asserted, Res.orPanic]
  · simp [step, AMap.set, AMap.get, concrete, iface, asserted, Res.orPanic, entries, visit, AMap.keys, arrange]
  · simp [step, AMap.get, concrete, iface, asserted, Res.orPanic]
  · simp [step, AMap.set, AMap.get, concrete]

/-- **C159** (sessions). The methods of `Session`, on nine such maps, never panic and do what they do in the model of `Session`, where the tables are
maps without types: from corresponding tables to corresponding tables, with the same result. -/
theorem C159_session {α : Type} (p : Session.Prog α) (ms : Session.Tab → State Nat Nat) (s : Session.State)
    (hs : ∀ t k, (ms t).get (some k) = (s t k).map some) :
    (run ms p).2 = .ok (p.run s).2 ∧ ∀ t k, ((run ms p).1 t).get (some k) = ((p.run s).1 t k).map some := by
  induction p generalizing ms s with
  | ret a => exact ⟨rfl, hs⟩
  | load t k c ih =>
    have h := hs t k
    simp only [run, step, concrete, Session.Prog.run, h]
    cases s t k <;> exact ih _ ms s hs
  | store t k v c ih =>
    simp only [run, step, concrete, Session.Prog.run]
    refine ih _ _ fun t' k' => ?_
    simp only [Session.State.put]
    split
    · rw [AMap.get_set, FMap.set_apply, hs t k']
      by_cases e : k' = k <;> simp [e]
    · exact hs t' k'
  | delete t k c ih =>
    simp only [run, step, concrete, Session.Prog.run]
    refine ih _ _ fun t' k' => ?_
    simp only [Session.State.put]
    split
    · rw [AMap.get_del, FMap.del_apply, hs t k']
      by_cases e : k' = k <;> simp [e]
    · exact hs t' k'
  | loadAndDelete t k c ih =>
    have h := hs t k
    simp only [run, step, concrete, Session.Prog.run, h]
    cases hv : s t k with
    | none =>
      refine ih _ _ _ fun t' k' => ?_
      simp only [Session.State.put]
      split
      · rename_i e; subst e
        rw [FMap.del_apply, hs t' k']
        by_cases e : k' = k
        · simp [e, hv]
        · simp [e]
      · exact hs t' k'
    | some v =>
      refine ih _ _ _ fun t' k' => ?_
      simp only [Session.State.put]
      split
      · rw [AMap.get_del, FMap.del_apply, hs t k']
        by_cases e : k' = k <;> simp [e]
      · exact hs t' k'

/-- New tables correspond. -/
example : ∀ t k, AMap.get (((fun _ => []) : Session.Tab → State Nat Nat) t) (some k) = (Session.init t k).map some := fun _ _ => rfl

/-- A history with all kinds of calls: the key 1 holds 5, the key 2 nothing. -/
example : ∃ m, Hist (concrete Nat) (concrete Nat)
    [.range (fun _ _ => true) [], .delete 2, .loadOrStore 1 6, .load 2, .store 2 7, .loadOrStore 1 5, .loadAndDelete 1, .store 1 4] m ∧
    (step (concrete Nat) (concrete Nat) m (.load 1)).2 = .ok (.found (some 5)) ∧
    (step (concrete Nat) (concrete Nat) m (.load 2)).2 = .ok (.found none) ∧
    (step (concrete Nat) (concrete Nat) m (.range (fun _ _ => true) [])).2 = .ok (.seen [(1, 5)]) :=
  ⟨_, .step _ (.step _ (.step _ (.step _ (.step _ (.step _ (.step _ (.step _ .new))))))), rfl, rfl, rfl⟩
/-- An interface type without nil. -/
example : (Op.store (X := Nat) 1 (some 5)).NonNil (concrete Nat) (iface Nat) := ⟨rfl, rfl⟩

/-! The tests of internal/map_test.go. -/
private def go (ops : List (Op Nat Nat Nat)) : State Nat Nat := ops.foldl (fun m op => (step (concrete Nat) (concrete Nat) m op).1) []
example : (step (concrete Nat) (concrete Nat) (go []) (.loadOrStore 1 7)).2 = .ok (.actual 7 false) ∧
    (step (concrete Nat) (concrete Nat) (go [.loadOrStore 1 7]) (.loadOrStore 1 8)).2 = .ok (.actual 7 true) ∧
    (step (concrete Nat) (concrete Nat) (go [.store 1 100, .store 2 200]) (.range (fun _ _ => true) [])).2 = .ok (.seen [(1, 100), (2, 200)]) ∧
    (step (concrete Nat) (concrete Nat) (go [.store 1 100, .store 2 200]) (.range (fun _ _ => true) [some 2])).2 = .ok (.seen [(2, 200), (1, 100)]) :=
  ⟨rfl, rfl, rfl, rfl⟩

end Wamp.SyncMap
