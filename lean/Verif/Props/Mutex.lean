import Verif.Model.Mutex
/-!
# Calls return
-/
namespace Wamp.Mutex

/-- The order in which mutexes are taken. -/
def Key.level : Key → Nat
  | .part _ => 0
  | .ids _ => 1

/-- What is left of a call that holds the mutexes `st`, the last one taken first. -/
def Good : List Key → List Instr → Prop
  | st, [] => st = []
  | st, .work :: l => Good st l
  | st, .lock k :: l => (∀ j ∈ st, j.level < k.level) ∧ Good (k :: st) l
  | st, .unlock k :: l => ∃ st', st = k :: st' ∧ Good st' l

theorem body_good {n : Nat} {l : List Instr} (h : Body n l) : Good [.part n] (l ++ [.unlock (.part n)]) := by
  induction h with
  | done => exact ⟨[], rfl, rfl⟩
  | work _ ih => exact ih
  | id _ ih => exact ⟨by simp [Key.level], _, rfl, ih⟩

theorem method_good {l : List Instr} (h : Method l) : Good [] l := by
  cases h with
  | part h => exact ⟨by simp, body_good h⟩
  | ids n => exact ⟨by simp, [], rfl, rfl⟩

/-- Every goroutine holds the mutexes it has to release. -/
structure Inv (c : Cfg) (st : Nat → List Key) : Prop where
  good : ∀ i, Good (st i) (c.todo i)
  nodup : ∀ i, (st i).Nodup
  own : ∀ k i, c.holder k = some i ↔ k ∈ st i
  used : ∀ i, c.used ≤ i → c.todo i = []

theorem good_nil {st : List Key} (h : Good st []) : st = [] := h

theorem inv_continue {c c' : Cfg} {st : Nat → List Key} {i : Nat} (J : Inv c st) (h : Continue i c c') : ∃ st', Inv c' st' := by
  have hu : ∀ l, c.todo i ≠ [] → ∀ j, c.used ≤ j → c.now i l j = [] := by
    intro l hne j hj
    simp only [Cfg.now]
    split
    · rename_i e; subst e; exact absurd (J.used j hj) hne
    · exact J.used j hj
  cases h with
  | @lock k l ht hf =>
    have g := J.good i
    rw [ht] at g
    refine ⟨fun j => if j = i then k :: st i else st j, ⟨fun j => ?_, fun j => ?_, fun k' j => ?_, hu l (by rw [ht]; simp)⟩⟩
    · simp only [Cfg.now]
      split
      · exact g.2
      · exact J.good j
    · show (if j = i then _ else st j).Nodup
      split
      · refine List.nodup_cons.2 ⟨fun hm => ?_, J.nodup i⟩
        exact absurd (g.1 k hm) (Nat.lt_irrefl _)
      · exact J.nodup j
    · simp only [Cfg.held]
      split
      · rename_i e
        subst e
        split
        · rename_i e; subst e; simp
        · rename_i e
          constructor
          · intro h; cases h; exact absurd rfl e
          · intro h; rw [(J.own k' j).2 h] at hf; cases hf
      · rename_i e
        split
        · rename_i e'
          subst e'
          rw [J.own, List.mem_cons]
          simp [e]
        · exact J.own k' j
  | @unlock k l ht hf =>
    have g := J.good i
    rw [ht] at g
    obtain ⟨st', e, g⟩ := g
    have hn := J.nodup i
    rw [e, List.nodup_cons] at hn
    have hki : c.holder k = some i := (J.own k i).2 (by rw [e]; simp)
    refine ⟨fun j => if j = i then st' else st j, ⟨fun j => ?_, fun j => ?_, fun k' j => ?_, hu l (by rw [ht]; simp)⟩⟩
    · simp only [Cfg.now]
      split
      · exact g
      · exact J.good j
    · show (if j = i then _ else st j).Nodup
      split
      · exact hn.2
      · exact J.nodup j
    · simp only [Cfg.held]
      split
      · rename_i e1
        subst e1
        constructor
        · intro h; cases h
        · split
          · intro h; exact absurd h hn.1
          · rename_i e2
            intro h
            have := (J.own k' j).2 h
            rw [hki] at this
            cases this
            exact absurd rfl e2
      · rename_i e1
        split
        · rename_i e2
          subst e2
          rw [J.own, e, List.mem_cons]
          simp [e1]
        · exact J.own k' j
  | @work l ht =>
    refine ⟨st, ⟨fun j => ?_, J.nodup, J.own, hu l (by rw [ht]; simp)⟩⟩
    simp only [Cfg.now]
    split
    · rename_i e
      subst e
      have g := J.good j
      rw [ht] at g
      exact g
    · exact J.good j

theorem reach_inv {c : Cfg} (h : Reach c) : ∃ st, Inv c st := by
  induction h with
  | init => exact ⟨fun _ => [], ⟨fun _ => rfl, fun _ => List.nodup_nil, fun _ _ => by simp [Cfg.init], fun _ _ => rfl⟩⟩
  | step _ hs ih =>
    obtain ⟨st, J⟩ := ih
    cases hs with
    | @call i l h0 hm =>
      refine ⟨st, ⟨fun j => ?_, J.nodup, J.own, fun j hj => ?_⟩⟩
      · simp only [Cfg.now]
        split
        · rename_i e
          subst e
          have g := J.good j
          rw [h0] at g
          rw [good_nil g]
          exact method_good hm
        · exact J.good j
      · simp only [Cfg.now]
        have hj : max _ (i + 1) ≤ j := hj
        split
        · omega
        · exact J.used j (by omega)
    | go i hc => exact inv_continue J hc

/-- A goroutine in a call can go on, or it waits for a mutex of higher level than all it holds. -/
theorem go_or_wait {c : Cfg} {st : Nat → List Key} (J : Inv c st) {i : Nat} (hi : c.todo i ≠ []) :
    (∃ c', Continue i c c') ∨ ∃ k j, c.holder k = some j ∧ ∀ k' ∈ st i, k'.level < k.level := by
  have g := J.good i
  cases h : c.todo i with
  | nil => exact absurd h hi
  | cons a l =>
    rw [h] at g
    cases a with
    | work => exact .inl ⟨_, .work h⟩
    | unlock k =>
      obtain ⟨st', e, -⟩ := g
      exact .inl ⟨_, .unlock h (by rw [(J.own k i).2 (by rw [e]; simp)]; simp)⟩
    | lock k =>
      cases hk : c.holder k with
      | none => exact .inl ⟨_, .lock h hk⟩
      | some j => exact .inr ⟨k, j, hk, g.1⟩

theorem holder_busy {c : Cfg} {st : Nat → List Key} (J : Inv c st) {k : Key} {j : Nat} (h : c.holder k = some j) : c.todo j ≠ [] := by
  intro e
  have g := J.good j
  rw [e] at g
  have := (J.own k j).1 h
  rw [good_nil g] at this
  cases this

/-- **C142** No deadlock: whatever calls are under way, one of them can go on. -/
theorem C142_no_deadlock {c : Cfg} (h : Reach c) (hb : ∃ i, c.todo i ≠ []) : ∃ i c', Continue i c c' := by
  obtain ⟨st, J⟩ := reach_inv h
  obtain ⟨i, hi⟩ := hb
  rcases go_or_wait J hi with ⟨c', h⟩ | ⟨k, j, hk, -⟩
  · exact ⟨i, c', h⟩
  · rcases go_or_wait J (holder_busy J hk) with ⟨c', h⟩ | ⟨k2, j2, hk2, hl⟩
    · exact ⟨j, c', h⟩
    · have h1 := hl k ((J.own k j).1 hk)
      rcases go_or_wait J (holder_busy J hk2) with ⟨c', h⟩ | ⟨k3, j3, hk3, hl3⟩
      · exact ⟨j2, c', h⟩
      · have h2 := hl3 k2 ((J.own k2 j2).1 hk2)
        have h3 : k3.level ≤ 1 := by cases k3 <;> simp [Key.level]
        omega

theorem sum_now (c : Cfg) (i : Nat) (l : List Instr) : ∀ n, i < n →
    ((List.range n).map fun j => (c.now i l j).length).sum + (c.todo i).length = ((List.range n).map fun j => (c.todo j).length).sum + l.length
  | 0, h => absurd h (Nat.not_lt_zero _)
  | n + 1, h => by
    simp only [List.range_succ, List.map_append, List.sum_append, List.map_cons, List.map_nil, List.sum_cons, List.sum_nil, Nat.add_zero]
    by_cases e : i = n
    · subst e
      have : ∀ j ∈ List.range i, (c.now i l j).length = (c.todo j).length := by
        intro j hj
        have := List.mem_range.1 hj
        simp only [Cfg.now]
        split
        · omega
        · rfl
      rw [List.map_congr_left this]
      simp only [Cfg.now, if_true]
      omega
    · have ih := sum_now c i l n (by omega)
      have : c.now i l n = c.todo n := by simp [Cfg.now, Ne.symm e]
      rw [this]
      omega

theorem left_continue {c c' : Cfg} {st : Nat → List Key} {i : Nat} (J : Inv c st) (h : Continue i c c') : c.left = c'.left + 1 := by
  have key : ∀ a l, c.todo i = a :: l → ((List.range c.used).map fun j => (c.now i l j).length).sum + 1 = c.left := by
    intro a l ht
    have hi : i < c.used := by
      apply Nat.lt_of_not_le
      intro hu
      rw [J.used i hu] at ht
      cases ht
    have := sum_now c i l c.used hi
    rw [ht, List.length_cons] at this
    simp only [Cfg.left]
    omega
  cases h with
  | lock ht _ => exact (key _ _ ht).symm
  | unlock ht _ => exact (key _ _ ht).symm
  | work ht => exact (key _ _ ht).symm

theorem runs_reach {n : Nat} {c c' : Cfg} (h : Runs n c c') (hr : Reach c) : Reach c' := by
  induction h with
  | refl => exact hr
  | step i hc _ ih => exact ih (hr.step (.go i hc))

theorem runs_left {n : Nat} {c c' : Cfg} (h : Runs n c c') (hr : Reach c) : c.left = c'.left + n := by
  induction h with
  | refl => rfl
  | step i hc _ ih =>
    obtain ⟨st, J⟩ := reach_inv hr
    have := left_continue J hc
    have := ih (hr.step (.go i hc))
    omega

theorem sum_zero {l : List Nat} (h : l.sum = 0) : ∀ x ∈ l, x = 0 := by
  induction l with
  | nil => intro x hx; cases hx
  | cons y l ih =>
    rw [List.sum_cons] at h
    intro x hx
    rcases List.mem_cons.1 hx with rfl | hx
    · omega
    · exact ih (by omega) x hx

/-- **C142** Every call returns: from whatever state, if no more calls are made, then however the goroutines are scheduled, they take no more than `c.left` steps, they can always
go on until they have taken that many, and then all calls have returned and every mutex is free. -/
theorem C142_calls_return {c : Cfg} (h : Reach c) {n : Nat} {c' : Cfg} (hr : Runs n c c') :
    n ≤ c.left ∧ (n < c.left → ∃ i c'', Continue i c' c'') ∧ (n = c.left → (∀ i, c'.todo i = []) ∧ ∀ k, c'.holder k = none) := by
  have hl := runs_left hr h
  have hr' := runs_reach hr h
  obtain ⟨st, J⟩ := reach_inv hr'
  refine ⟨by omega, fun hn => ?_, fun hn => ?_⟩
  · apply C142_no_deadlock hr'
    apply Classical.byContradiction
    intro hno
    have : c'.left = 0 := by
      simp only [Cfg.left]
      have : ∀ i ∈ List.range c'.used, (c'.todo i).length = 0 := by
        intro i _
        cases e : c'.todo i with
        | nil => rfl
        | cons a l => exact absurd ⟨i, by rw [e]; simp⟩ hno
      rw [List.map_congr_left this]
      generalize List.range c'.used = l
      induction l with
      | nil => rfl
      | cons x l ih => simpa using ih
    omega
  · have h0 : c'.left = 0 := by omega
    have idle : ∀ i, c'.todo i = [] := by
      intro i
      by_cases hi : i < c'.used
      · have := sum_zero h0 (c'.todo i).length (List.mem_map.2 ⟨i, List.mem_range.2 hi, rfl⟩)
        exact List.length_eq_zero_iff.1 this
      · exact J.used i (by omega)
    refine ⟨idle, fun k => ?_⟩
    cases hk : c'.holder k with
    | none => rfl
    | some j => exact absurd (idle j) (holder_busy J hk)

/-- **C142** Two goroutines are never inside methods of the same broker or dealer at the same time: if one has taken the mutex, nobody else can. -/
theorem C142_exclusive {c : Cfg} (h : Reach c) {i : Nat} {k : Key} {l l' : List Instr} (hi : c.todo i = l ++ .unlock k :: l')
    (hl : ∀ a ∈ l, a ≠ .lock k) : c.holder k = some i := by
  obtain ⟨st, J⟩ := reach_inv h
  have g := J.good i
  rw [hi] at g
  rw [J.own]
  clear hi
  generalize st i = s at g ⊢
  induction l generalizing s with
  | nil =>
    obtain ⟨st', e, -⟩ := g
    rw [e]
    exact List.mem_cons_self ..
  | cons a l ih =>
    have hl' : ∀ a ∈ l, a ≠ .lock k := fun a ha => hl a (List.mem_cons_of_mem _ ha)
    cases a with
    | work => exact ih hl' s g
    | unlock k' =>
      obtain ⟨st', e, g⟩ := g
      rw [e]
      exact List.mem_cons_of_mem _ (ih hl' st' g)
    | lock k' =>
      rcases List.mem_cons.1 (ih hl' _ g.2) with e | hm
      · exact absurd (by rw [e]) (hl (.lock k') (List.mem_cons_self ..))
      · exact hm

/-! ## While calls keep coming -/

theorem exec_reach (σ : Exec) (n : Nat) : Reach (σ.cfg n) := by
  induction n with
  | zero => rw [σ.start]; exact .init
  | succ n ih =>
    rcases σ.next n with h | h
    · exact ih.step h
    · rw [h]; exact ih

theorem now_other (c : Cfg) {i j : Nat} (l : List Instr) (h : j ≠ i) : c.now i l j = c.todo j := by simp [Cfg.now, h]

theorem now_self (c : Cfg) (i : Nat) (l : List Instr) : c.now i l i = l := by simp [Cfg.now]

/-- A goroutine in a call stays where it is unless it continues. -/
theorem stays (σ : Exec) {n i : Nat} (hi : (σ.cfg n).todo i ≠ []) :
    (σ.cfg (n + 1)).todo i = (σ.cfg n).todo i ∨ (Continue i (σ.cfg n) (σ.cfg (n + 1)) ∧ (σ.cfg (n + 1)).todo i = ((σ.cfg n).todo i).tail) := by
  rcases σ.next n with h | h
  · generalize σ.cfg n = c at *
    generalize σ.cfg (n + 1) = c' at *
    cases h with
    | call j h0 _ => exact .inl (now_other _ _ fun e => hi (e ▸ h0))
    | go j hc =>
      by_cases e : i = j
      · subst e
        refine .inr ⟨hc, ?_⟩
        cases hc with
        | lock ht _ => rw [ht]; exact now_self ..
        | unlock ht _ => rw [ht]; exact now_self ..
        | work ht => rw [ht]; exact now_self ..
      · refine .inl ?_
        cases hc <;> exact now_other _ _ e
  · rw [h]; exact .inl rfl

/-- The mutex stays with its holder unless that one continues. -/
theorem stays_held (σ : Exec) {n i : Nat} {k : Key} (hk : (σ.cfg n).holder k = some i) :
    (σ.cfg (n + 1)).holder k = some i ∨ Continue i (σ.cfg n) (σ.cfg (n + 1)) := by
  obtain ⟨st, J⟩ := reach_inv (exec_reach σ n)
  rcases σ.next n with h | h
  · generalize σ.cfg n = c at *
    generalize σ.cfg (n + 1) = c' at *
    cases h with
    | call j _ _ => exact .inl hk
    | go j hc =>
      by_cases e : i = j
      · subst e; exact .inr hc
      · refine .inl ?_
        cases hc with
        | @lock k' l ht hf =>
          show c.held k' (some j) k = some i
          simp only [Cfg.held]
          split
          · rename_i e'; subst e'; rw [hk] at hf; cases hf
          · exact hk
        | @unlock k' l ht hf =>
          show c.held k' none k = some i
          simp only [Cfg.held]
          split
          · rename_i e'
            subst e'
            have g := J.good j
            rw [ht] at g
            obtain ⟨st', e2, -⟩ := g
            have := (J.own k j).2 (by rw [e2]; exact List.mem_cons_self ..)
            rw [hk] at this
            cases this
            exact absurd rfl e
          · exact hk
        | work _ => exact hk
  · rw [h]; exact .inl hk

/-- The goroutine continues at some time from `n` on. -/
def Goes (σ : Exec) (i n : Nat) : Prop := ∃ m, n ≤ m ∧ Continue i (σ.cfg m) (σ.cfg (m + 1))

theorem fixed (σ : Exec) {i n : Nat} (hi : (σ.cfg n).todo i ≠ []) (m : Nat) (hm : n ≤ m)
    (hno : ∀ m', n ≤ m' → m' < m → ¬ Continue i (σ.cfg m') (σ.cfg (m' + 1))) :
    (σ.cfg m).todo i = (σ.cfg n).todo i ∧ ∀ k, (σ.cfg n).holder k = some i → (σ.cfg m).holder k = some i := by
  induction hm with
  | refl => exact ⟨rfl, fun _ h => h⟩
  | @step m hm ih =>
    obtain ⟨h1, h2⟩ := ih fun m' a b => hno m' a (Nat.lt_succ_of_lt b)
    have hn := hno m hm (Nat.lt_succ_self m)
    refine ⟨?_, fun k hk => ?_⟩
    · rcases stays σ (n := m) (i := i) (by rw [h1]; exact hi) with h | h
      · rw [h, h1]
      · exact absurd h.1 hn
    · exact (stays_held σ (h2 k hk)).resolve_right hn

/-- The first time it does. -/
theorem goes_first (σ : Exec) {i n : Nat} (hi : (σ.cfg n).todo i ≠ []) (h : Goes σ i n) :
    ∃ m, n ≤ m ∧ Continue i (σ.cfg m) (σ.cfg (m + 1)) ∧ (σ.cfg m).todo i = (σ.cfg n).todo i ∧
      (σ.cfg (m + 1)).todo i = ((σ.cfg n).todo i).tail ∧ ∀ k, (σ.cfg n).holder k = some i → (σ.cfg m).holder k = some i := by
  obtain ⟨m, hm, hc⟩ := h
  induction m using Nat.strongRecOn with
  | _ m ih =>
    by_cases hex : ∃ m', n ≤ m' ∧ m' < m ∧ Continue i (σ.cfg m') (σ.cfg (m' + 1))
    · obtain ⟨m', a, b, c⟩ := hex
      exact ih m' b a c
    · obtain ⟨h1, h2⟩ := fixed σ hi m hm fun m' a b c => hex ⟨m', a, b, c⟩
      refine ⟨m, hm, hc, h1, ?_, h2⟩
      rw [← h1]
      generalize σ.cfg m = c at *
      generalize σ.cfg (m + 1) = c' at *
      cases hc with
      | lock ht _ => rw [ht]; exact now_self ..
      | unlock ht _ => rw [ht]; exact now_self ..
      | work ht => rw [ht]; exact now_self ..

/-- Who could continue, however long it waits, does. -/
theorem goes_of_ready (σ : Exec) (hf : σ.Fair) {i n : Nat} (h : ∀ N, n ≤ N → (∀ m, n ≤ m → m < N → ¬ Continue i (σ.cfg m) (σ.cfg (m + 1))) →
    ∃ m, N ≤ m ∧ ∃ c', Continue i (σ.cfg m) c') : Goes σ i n := by
  apply Classical.byContradiction
  intro hno
  have hno' : ∀ m, n ≤ m → ¬ Continue i (σ.cfg m) (σ.cfg (m + 1)) := fun m hm hc => hno ⟨m, hm, hc⟩
  apply hno
  have := hf i (fun N => by
    obtain ⟨m, hm, hc⟩ := h (max n N) (Nat.le_max_left ..) fun m a _ => hno' m a
    exact ⟨m, Nat.le_trans (Nat.le_max_right ..) hm, hc⟩) n
  exact this

/-- What is next for a goroutine is not a mutex of a level below `L`. -/
def Above (L : Nat) (l : List Instr) : Prop := ∀ k r, l = .lock k :: r → L ≤ k.level

theorem goes (σ : Exec) (hf : σ.Fair) (d : Nat) : ∀ (i n : Nat), (σ.cfg n).todo i ≠ [] → Above (2 - d) ((σ.cfg n).todo i) → Goes σ i n := by
  induction d with
  | zero =>
    intro i n hi ha
    refine goes_of_ready σ hf fun N hN hno => ⟨N, Nat.le_refl _, ?_⟩
    obtain ⟨h1, -⟩ := fixed σ hi N hN hno
    obtain ⟨st, J⟩ := reach_inv (exec_reach σ N)
    have g := J.good i
    rw [h1] at g
    cases h : (σ.cfg n).todo i with
    | nil => exact absurd h hi
    | cons a l =>
      rw [h] at g h1
      cases a with
      | work => exact ⟨_, .work h1⟩
      | unlock k =>
        obtain ⟨st', e, -⟩ := g
        exact ⟨_, .unlock h1 (by rw [(J.own k i).2 (by rw [e]; simp)]; simp)⟩
      | lock k =>
        have := ha k l h
        have : k.level ≤ 1 := by cases k <;> simp [Key.level]
        omega
  | succ d ihd =>
    intro i n hi ha
    -- a mutex of level `1 - d` is released
    have free : ∀ k : Key, 2 - (d + 1) ≤ k.level → ∀ len N j, ((σ.cfg N).todo j).length = len → (σ.cfg N).holder k = some j → ∃ m, N ≤ m ∧ (σ.cfg m).holder k = none := by
      intro k hkl len
      induction len with
      | zero =>
        intro N j hlen hk
        obtain ⟨st, J⟩ := reach_inv (exec_reach σ N)
        exact absurd (List.length_eq_zero_iff.1 hlen) (holder_busy J hk)
      | succ len ih =>
        intro N j hlen hk
        obtain ⟨st, J⟩ := reach_inv (exec_reach σ N)
        have hb := holder_busy J hk
        have hg : Goes σ j N := by
          apply ihd j N hb
          intro k' r e
          have g := J.good j
          rw [e] at g
          have := g.1 k ((J.own k j).1 hk)
          omega
        obtain ⟨m, hm, hc, h1, h2, h3⟩ := goes_first σ hb hg
        by_cases hk' : (σ.cfg (m + 1)).holder k = some j
        · obtain ⟨m', a, b⟩ := ih (m + 1) j (by rw [h2, List.length_tail, hlen]; rfl) hk'
          exact ⟨m', by omega, b⟩
        · refine ⟨m + 1, by omega, ?_⟩
          have hkm := h3 k hk
          generalize σ.cfg m = c at *
          generalize σ.cfg (m + 1) = c' at *
          cases hc with
          | @lock k2 l ht hf' =>
            exfalso
            apply hk'
            show c.held k2 (some j) k = some j
            simp only [Cfg.held]
            split
            · rfl
            · exact hkm
          | @unlock k2 l ht hf' =>
            have hk' : c.held k2 none k ≠ some j := hk'
            show c.held k2 none k = none
            simp only [Cfg.held] at hk' ⊢
            split
            · rfl
            · rename_i e
              rw [if_neg e] at hk'
              exact absurd hkm hk'
          | work ht => exact absurd hkm hk'
    cases h : (σ.cfg n).todo i with
    | nil => exact absurd h hi
    | cons a l =>
      by_cases hlk : ∃ k, a = .lock k
      · obtain ⟨k, rfl⟩ := hlk
        have hkl := ha k l h
        refine goes_of_ready σ hf fun N hN hno => ?_
        obtain ⟨m, hm, hfree⟩ : ∃ m, N ≤ m ∧ (σ.cfg m).holder k = none := by
          cases hk : (σ.cfg N).holder k with
          | none => exact ⟨N, Nat.le_refl _, hk⟩
          | some j => exact free k hkl _ N j rfl hk
        by_cases hno' : ∃ m', n ≤ m' ∧ m' < m ∧ Continue i (σ.cfg m') (σ.cfg (m' + 1))
        · obtain ⟨m', a, b, c⟩ := hno'
          refine ⟨m', ?_, _, c⟩
          apply Nat.le_of_not_lt
          intro hlt
          exact hno m' a hlt c
        · obtain ⟨h1, -⟩ := fixed σ hi m (Nat.le_trans hN hm) fun m' a b c => hno' ⟨m', a, b, c⟩
          exact ⟨m, hm, _, .lock (h1.trans h) hfree⟩
      · apply ihd i n hi
        intro k r e
        rw [h] at e
        cases e
        exact absurd ⟨k, rfl⟩ hlk

/-- **C142** Every call returns while others keep calling, if scheduler and mutexes are fair. -/
theorem C142_fair (σ : Exec) (hf : σ.Fair) (n i : Nat) : ∃ m, n ≤ m ∧ (σ.cfg m).todo i = [] := by
  obtain ⟨len, hl⟩ : ∃ len, len = ((σ.cfg n).todo i).length := ⟨_, rfl⟩
  induction len generalizing n with
  | zero => exact ⟨n, Nat.le_refl _, List.length_eq_zero_iff.1 hl.symm⟩
  | succ len ih =>
    have hi : (σ.cfg n).todo i ≠ [] := by intro e; rw [e] at hl; cases hl
    have hg := goes σ hf 2 i n hi fun _ _ _ => Nat.zero_le _
    obtain ⟨m, hm, -, -, h2, -⟩ := goes_first σ hi hg
    obtain ⟨m', a, b⟩ := ih (m + 1) (by rw [h2, List.length_tail, ← hl]; rfl)
    exact ⟨m', by omega, b⟩

/-- Two goroutines draw IDs again and again, and one waits for the other every time. -/
def busy (u : Nat) (r : Nat) : Cfg where
  todo i :=
    if i = 0 then (if r = 0 then [] else (nextID 0).drop (r - 2))
    else if i = 1 then (if r < 2 then [] else (nextID 0).drop (r - 7)) else []
  holder k := if k = .ids 0 then (if r < 3 then none else if r < 7 then some 0 else if r = 7 then none else some 1) else none
  used := u

theorem continue_lock {i : Nat} {c c' : Cfg} {k : Key} {l : List Instr} (h : c.todo i = .lock k :: l) (hk : c.holder k = none)
    (h1 : ∀ j, c'.todo j = c.now i l j) (h2 : ∀ j, c'.holder j = c.held k (some i) j) (h3 : c'.used = c.used) : Continue i c c' := by
  have : c' = { c with todo := c.now i l, holder := c.held k (some i) } := by
    cases c'; cases h3; rw [Cfg.mk.injEq]; exact ⟨funext h1, funext h2, rfl⟩
  rw [this]
  exact .lock h hk

theorem continue_unlock {i : Nat} {c c' : Cfg} {k : Key} {l : List Instr} (h : c.todo i = .unlock k :: l) (hk : c.holder k ≠ none)
    (h1 : ∀ j, c'.todo j = c.now i l j) (h2 : ∀ j, c'.holder j = c.held k none j) (h3 : c'.used = c.used) : Continue i c c' := by
  have : c' = { c with todo := c.now i l, holder := c.held k none } := by
    cases c'; cases h3; rw [Cfg.mk.injEq]; exact ⟨funext h1, funext h2, rfl⟩
  rw [this]
  exact .unlock h hk

theorem continue_work {i : Nat} {c c' : Cfg} {l : List Instr} (h : c.todo i = .work :: l)
    (h1 : ∀ j, c'.todo j = c.now i l j) (h2 : ∀ j, c'.holder j = c.holder j) (h3 : c'.used = c.used) : Continue i c c' := by
  have : c' = { c with todo := c.now i l } := by
    cases c'; cases h3; rw [Cfg.mk.injEq]; exact ⟨funext h1, funext h2, rfl⟩
  rw [this]
  exact .work h

theorem busy_go0 (u r : Nat) (h : 2 ≤ r ∧ r < 7) : Continue 0 (busy u r) (busy u (r + 1)) := by
  have hc : r = 2 ∨ r = 3 ∨ r = 4 ∨ r = 5 ∨ r = 6 := by omega
  rcases hc with rfl | rfl | rfl | rfl | rfl
  · exact continue_lock (k := .ids 0) rfl rfl (fun j => by simp [busy, Cfg.now, nextID]; split <;> simp_all) (fun j => by simp [busy, Cfg.held]) rfl
  · exact continue_work rfl (fun j => by simp [busy, Cfg.now, nextID]; split <;> simp_all) (fun j => by simp [busy]) rfl
  · exact continue_work rfl (fun j => by simp [busy, Cfg.now, nextID]; split <;> simp_all) (fun j => by simp [busy]) rfl
  · exact continue_work rfl (fun j => by simp [busy, Cfg.now, nextID]; split <;> simp_all) (fun j => by simp [busy]) rfl
  · exact continue_unlock (k := .ids 0) rfl (by simp [busy]) (fun j => by simp [busy, Cfg.now, nextID]; split <;> simp_all) (fun j => by simp [busy, Cfg.held]) rfl

theorem busy_go1 (u r : Nat) (h : 7 ≤ r ∧ r < 12) : Continue 1 (busy u r) (busy u (if r = 11 then 0 else r + 1)) := by
  have hc : r = 7 ∨ r = 8 ∨ r = 9 ∨ r = 10 ∨ r = 11 := by omega
  rcases hc with rfl | rfl | rfl | rfl | rfl
  · exact continue_lock (k := .ids 0) rfl rfl (fun j => by simp [busy, Cfg.now, nextID]; split <;> simp_all) (fun j => by simp [busy, Cfg.held]) rfl
  · exact continue_work rfl (fun j => by simp [busy, Cfg.now, nextID]; split <;> simp_all) (fun j => by simp [busy]) rfl
  · exact continue_work rfl (fun j => by simp [busy, Cfg.now, nextID]; split <;> simp_all) (fun j => by simp [busy]) rfl
  · exact continue_work rfl (fun j => by simp [busy, Cfg.now, nextID]; split <;> simp_all) (fun j => by simp [busy]) rfl
  · exact continue_unlock (k := .ids 0) rfl (by simp [busy]) (fun j => by simp [busy, Cfg.now, nextID]; omega) (fun j => by simp [busy, Cfg.held]) rfl

theorem busy_call0 (u : Nat) : Step (busy u 0) (busy (max u 1) 1) := by
  have : busy (max u 1) 1 = { busy u 0 with todo := (busy u 0).now 0 (nextID 0), used := max (busy u 0).used (0 + 1) } := by
    simp only [busy, Cfg.mk.injEq]
    exact ⟨funext fun j => by simp [Cfg.now, nextID], by simp, by simp⟩
  rw [this]
  exact .call 0 rfl (.ids 0)

theorem busy_call1 (u : Nat) : Step (busy u 1) (busy (max u 2) 2) := by
  have : busy (max u 2) 2 = { busy u 1 with todo := (busy u 1).now 1 (nextID 0), used := max (busy u 1).used (1 + 1) } := by
    simp only [busy, Cfg.mk.injEq]
    exact ⟨funext fun j => by simp [Cfg.now, nextID]; split <;> simp_all, by simp, by simp⟩
  rw [this]
  exact .call 1 rfl (.ids 0)

theorem busy_next (n : Nat) : Step (busy (min n 2) (n % 12)) (busy (min (n + 1) 2) ((n + 1) % 12)) := by
  have h12 := Nat.mod_lt n (show 0 < 12 by decide)
  have hs : (n + 1) % 12 = if n % 12 = 11 then 0 else n % 12 + 1 := by split <;> omega
  by_cases h0 : n % 12 = 0
  · have := busy_call0 (min n 2)
    rw [hs, h0, show min (n + 1) 2 = max (min n 2) 1 by omega]
    exact this
  by_cases h1 : n % 12 = 1
  · have := busy_call1 (min n 2)
    rw [hs, h1, show min (n + 1) 2 = max (min n 2) 2 by omega]
    exact this
  rw [show min (n + 1) 2 = min n 2 by omega]
  by_cases h7 : n % 12 < 7
  · have := busy_go0 (min n 2) (n % 12) ⟨by omega, h7⟩
    rw [hs, if_neg (by omega)]
    exact .go 0 this
  · have := busy_go1 (min n 2) (n % 12) ⟨by omega, h12⟩
    rw [hs]
    exact .go 1 this

/-- The hypotheses of `C142_fair` can be met, by an execution in which there is always a call under way. -/
example : ∃ σ : Exec, σ.Fair ∧ ∀ N, ∃ n, N ≤ n ∧ (∃ l, (σ.cfg n).todo 1 = .lock (.ids 0) :: l) ∧ (σ.cfg n).holder (.ids 0) = some 0 := by
  refine ⟨⟨fun n => busy (min n 2) (n % 12), ?_, fun n => .inl (busy_next n)⟩, ?_, fun N => ⟨12 * N + 5, by omega, ?_, ?_⟩⟩
  · simp only [busy, Cfg.init, Cfg.mk.injEq]
    exact ⟨funext fun j => by simp, funext fun k => by simp, rfl⟩
  · intro i hi N
    by_cases h0 : i = 0
    · subst h0
      refine ⟨12 * N + 2, by omega, ?_⟩
      have := busy_go0 2 2 (by omega)
      simp only []
      rw [show (12 * N + 2) % 12 = 2 by omega, show (12 * N + 2 + 1) % 12 = 3 by omega, show min (12 * N + 2) 2 = 2 by omega, show min (12 * N + 2 + 1) 2 = 2 by omega]
      exact this
    by_cases h1 : i = 1
    · subst h1
      refine ⟨12 * N + 7, by omega, ?_⟩
      have := busy_go1 2 7 (by omega)
      simp only []
      rw [show (12 * N + 7) % 12 = 7 by omega, show (12 * N + 7 + 1) % 12 = 8 by omega, show min (12 * N + 7) 2 = 2 by omega, show min (12 * N + 7 + 1) 2 = 2 by omega]
      exact this
    obtain ⟨n, -, c', hc⟩ := hi 0
    exfalso
    have : (busy (min n 2) (n % 12)).todo i = [] := by simp [busy, h0, h1]
    cases hc with
    | lock ht _ => rw [this] at ht; cases ht
    | unlock ht _ => rw [this] at ht; cases ht
    | work ht => rw [this] at ht; cases ht
  · simp only []
    rw [show (12 * N + 5) % 12 = 5 by omega]
    exact ⟨_, rfl⟩
  · simp only []
    rw [show (12 * N + 5) % 12 = 5 by omega]
    rfl

/-- A broker is in the middle of a SUBSCRIBE and about to draw an ID, another goroutine waits for it, a third one draws an ID from the same generator. -/
example : ∃ c, Reach c ∧ c.left = 13 ∧ c.holder (.part 0) = some 1 ∧ c.holder (.ids 0) = some 3 ∧
    c.todo 1 = nextID 0 ++ [.work, .unlock (.part 0)] ∧ c.todo 2 = [.lock (.part 0), .work, .unlock (.part 0)] := by
  have r1 := Reach.init.step (.call 1 rfl (.part (n := 0) (.work (.id (.work .done)))))
  have r2 := r1.step (.call 2 rfl (.part (n := 0) (.work .done)))
  have r3 := r2.step (.call 3 rfl (.ids 0))
  have r4 := r3.step (.go 1 (.lock rfl rfl))
  have r5 := r4.step (.go 1 (.work rfl))
  have r6 := r5.step (.go 3 (.lock rfl rfl))
  have r7 := r6.step (.go 3 (.work rfl))
  exact ⟨_, r7, by decide +kernel, rfl, rfl, rfl, rfl⟩

end Wamp.Mutex
