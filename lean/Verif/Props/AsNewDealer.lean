import Verif.Props.AsNew
import Verif.Props.DealerRoutes
/-!
# C123: a dealer that everybody has left is as good as new, up to some remains
-/
namespace Wamp.Dealer
variable {w : Str → Str → Bool}

theorem removeStep_invByCall {s p : Nat} {a a' : State} (h : removeStep s a p = .ok a') : a'.invByCall = a.invByCall ∧ a'.next = a.next := by
  simp only [removeStep] at h
  split at h
  · cases h; exact ⟨rfl, rfl⟩
  · cases hs : surgery s (a.heap _).callees.length 0 (a.heap _).callees (a.heap _).callees.length with
    | ok cs => rw [hs] at h; cases h; exact ⟨rfl, rfl⟩
    | err => rw [hs] at h; cases h
    | panic => rw [hs] at h; cases h

theorem removeLoop_invByCall {s : Nat} : ∀ {ps : List Nat} {a a' : State}, removeLoop s a ps = .ok a' → a'.invByCall = a.invByCall
  | [], _, _, h => by cases h; rfl
  | p :: ps, a, a', h => by
    simp only [removeLoop] at h
    cases hs : removeStep s a p with
    | ok x => rw [hs] at h; exact (removeLoop_invByCall h).trans (removeStep_invByCall hs).1
    | err => rw [hs] at h; cases h
    | panic => rw [hs] at h; cases h

/-- Only CALLs are remembered. -/
theorem step_invByCall (b : State) (op : Op) (s r : Nat) (res : Res Out) :
    (step w b op).1.invByCall (s, r) = b.invByCall (s, r) ∨ called s r ⟨op, res⟩ = true := by
  cases op with
  | add x => exact .inl (by simp only [step, addSession]; split <;> rfl)
  | has t => exact .inl rfl
  | disclose on => exact .inl rfl
  | remove x order =>
    refine .inl ?_
    simp only [step, removeSession]
    split
    · rfl
    · split
      · rename_i h; exact congrFun (removeLoop_invByCall h) (s, r)
      · rfl
      · rfl
  | receive x m order rnd =>
    cases m with
    | call q o p a k bin =>
      by_cases e : x = s ∧ q = r
      · exact .inr (by simp [called, e])
      · refine .inl ?_
        have hne : ((s, r) : Nat × Nat) ≠ (x, q) := fun h => e (by cases h; exact ⟨rfl, rfl⟩)
        simp only [step, receive, call]
        split
        · rfl
        · split
          · rfl
          · split
            · rfl
            · rfl
            · split
              · simp only; split
                · exact FMap.set_other _ _ hne
                · rfl
              · split
                · simp only; split
                  · exact FMap.set_other _ _ hne
                  · rfl
                · split
                  · simp only; split
                    · exact FMap.set_other _ _ hne
                    · rfl
                  · simp only; split
                    · exact FMap.set_other _ _ hne
                    · rfl
    | yield i o a k bin =>
      refine .inl ?_
      simp only [step, receive, yield]
      split
      · rfl
      · split
        · simp only; split <;> rfl
        · split
          · simp only; split <;> rfl
          · simp only; split <;> rfl
    | register q o p =>
      refine .inl ?_
      simp only [step, receive, register]
      split
      · rfl
      · split
        · split <;> rfl
        · rfl
    | unregister q i =>
      refine .inl ?_
      simp only [step, receive, unregister]
      split
      · rfl
      · split
        · rfl
        · split
          · rfl
          · simp only; split <;> rfl
    | error t i d u a k =>
      refine .inl ?_
      simp only [step, receive, error]
      split
      · rfl
      · split <;> rfl
    | _ => exact .inl rfl

theorem hist_invByCall {h : List Event} {b : State} (hh : Hist w h b) (s r : Nat) (hn : ∀ e ∈ h, called s r e = false) : b.invByCall (s, r) = none := by
  induction hh with
  | new => rfl
  | @step h b op hh hnp ih =>
    rcases step_invByCall (w := w) b op s r (step w b op).2 with h1 | h1
    · rw [h1]; exact ih fun e he => hn e (List.mem_cons_of_mem _ he)
    · rw [hn _ List.mem_cons_self] at h1; cases h1

/-- The same registration with another ID. -/
def Reg.shift (f : Nat → Nat) (x : Reg) : Reg := { x with id := f x.id }

/-- The dealer `b` is like `a` with IDs renamed by `f` and objects at addresses larger by `d`, but remembers calls in `P`. -/
structure Alike (P : Nat × Nat → Prop) (f : Nat → Nat) (d : Nat) (a b : State) : Prop where
  heap : ∀ p, p < a.next → b.heap (p + d) = (a.heap p).shift f
  next : b.next = a.next + d
  proc : ∀ t, b.byProc t = (a.byProc t).map (· + d)
  bys : ∀ s, b.bySession s = (a.bySession s).map (AMap.remap f (· + d))
  sess : b.sessions = a.sessions
  tree : b.tree = a.tree.remap id (· + d)
  wc : b.wc = a.wc.remap id (· + d)
  pen : ∀ i, 1 ≤ i → b.pending.get (f i) = a.pending.get i
  ibc : ∀ x, ¬P x → b.invByCall x = (a.invByCall x).map f
  ibp : ∀ x i, ¬P x → a.invByCall x = some i → 1 ≤ i
  det : b.details = a.details
  gen : ∀ k, f (a.idGen + 1 + k) = b.idGen + 1 + k
  le : a.idGen ≤ b.idGen
  inj : ∀ x y, f x = f y → x = y
  tb : ∀ t p, a.byProc t = some p → p < a.next
  sb : ∀ s m i p, a.bySession s = some m → m.get i = some p → p < a.next
  rb : ∀ t p, a.tree.get t = some p → p < a.next
  wb : ∀ t p, a.wc.get t = some p → p < a.next

open Broker (add_inj id_inj del_bound nextID_small map_get_nil)

variable {P : Nat × Nat → Prop} {f : Nat → Nat} {d : Nat} {a b : State}

theorem Alike.next_gen (h : Alike P f d a b) (k : Nat) : f (a.idGen + 1 + 1 + k) = b.idGen + 1 + 1 + k := by
  have := h.gen (k + 1)
  rwa [show a.idGen + 1 + (k + 1) = a.idGen + 1 + 1 + k by omega, show b.idGen + 1 + (k + 1) = b.idGen + 1 + 1 + k by omega] at this

theorem Alike.hset (h : Alike P f d a b) (p : Nat) (x : Reg) (q : Nat) (hq : q < a.next) :
    Wamp.hset b.heap (p + d) (x.shift f) (q + d) = (Wamp.hset a.heap p x q).shift f := by
  simp only [Wamp.hset]
  by_cases e : q = p
  · rw [if_pos e, if_pos (by omega)]
  · rw [if_neg e, if_neg (by omega)]; exact h.heap q hq

theorem Alike.add (h : Alike P f d a b) (x : SessionDetails) :
    Alike P f d (addSession a x).1 (addSession b x).1 ∧ (addSession b x).2 = (addSession a x).2 := by
  simp only [addSession, h.sess]
  split
  · exact ⟨h, rfl⟩
  · refine ⟨{ h with bys := ?_, sess := rfl, sb := ?_ }, rfl⟩
    · intro s
      simp only [FMap.set_apply]
      split
      · rfl
      · exact h.bys s
    · intro s m i p hm hi
      simp only [FMap.set_apply] at hm
      split at hm
      · cases hm; cases hi
      · exact h.sb s m i p hm hi

theorem Alike.register (h : Alike P f d a b) (hg : b.idGen < maxID) (s r : Nat) (o : GoMap) (t : Str) :
    Alike P f d (register a s r o t).1 (register b s r o t).1 ∧
      (register b s r o t).2 = (register a s r o t).2.map fun x => (renameMsg f x.1, x.2) := by
  have e1 := h.bys s
  have e2 := h.proc t
  have hgb := nextID_small hg
  have hga : nextID a.idGen = (a.idGen + 1, a.idGen + 1) := nextID_small (by have := h.le; omega)
  simp only [Dealer.register, hgb, hga, e1, e2]
  cases hm : a.bySession s with
  | none => exact ⟨h, rfl⟩
  | some m =>
    cases ht : a.byProc t with
    | some p =>
      have hp := h.tb t p ht
      have hh := h.heap p hp
      have hpol : ((a.heap p).shift f).policy = (a.heap p).policy := rfl
      simp only [Option.map_some, hh, hpol]
      split
      · exact ⟨h, rfl⟩
      · refine ⟨{ h with heap := ?_, bys := ?_, sb := ?_ }, rfl⟩
        · intro q hq
          exact h.hset p { a.heap p with
            registrants := if (a.heap p).registrants.contains s then (a.heap p).registrants else (a.heap p).registrants ++ [s]
            callees := (a.heap p).callees ++ [s] } q hq
        · intro x
          simp only [FMap.set_apply]
          split
          · simp only [Option.map_some]
            exact congrArg some (AMap.set_remap (f := f) (g := (· + d)) h.inj m (a.heap p).id p)
          · exact h.bys x
        · intro x m' i q hx hi
          simp only [FMap.set_apply] at hx
          split at hx
          · cases hx
            rw [AMap.get_set] at hi
            split at hi
            · cases hi; exact hp
            · exact h.sb s m i q hm hi
          · exact h.sb x m' i q hx hi
    | none =>
      simp only [Option.map_some, Option.map_none]
      have hid : b.idGen + 1 = f (a.idGen + 1) := (h.gen 0).symm
      have hnx : b.next = a.next + d := h.next
      have hsm : ∀ (x : AMap Str Nat), AMap.set (x.remap id (· + d)) t (a.next + d) = (x.set t a.next).remap id (· + d) :=
        fun x => AMap.set_remap (f := id) (g := (· + d)) id_inj x t a.next
      have hlt : ∀ {p : Nat}, p < a.next → p < a.next + 1 := fun h => Nat.lt_succ_of_lt h
      refine ⟨{ h with heap := ?_, next := ?_, proc := ?_, bys := ?_, tree := ?_, wc := ?_, gen := h.next_gen, le := Nat.succ_le_succ h.le
                       tb := ?_, sb := ?_, rb := ?_, wb := ?_ }, ?_⟩
      · intro q hq
        simp only [hnx, Wamp.hset, Nat.add_right_cancel_iff]
        split
        · simp only [Reg.shift, hid]
        · rename_i hne
          exact h.heap q (by have : q < a.next + 1 := hq; omega)
      · show b.next + 1 = a.next + 1 + d
        omega
      · intro t'
        simp only [FMap.set_apply, hnx]
        split
        · rfl
        · exact h.proc t'
      · intro x
        simp only [FMap.set_apply, hid, hnx]
        split
        · simp only [Option.map_some]
          exact congrArg some (AMap.set_remap (f := f) (g := (· + d)) h.inj m (a.idGen + 1) a.next)
        · exact h.bys x
      · simp only [h.tree, hnx, hsm]; split <;> rfl
      · simp only [h.wc, hnx, hsm]; split <;> rfl
      · intro t' p hp
        simp only [FMap.set_apply] at hp
        split at hp
        · cases hp; exact Nat.lt_succ_self _
        · exact hlt (h.tb t' p hp)
      · intro x m' i q hx hi
        simp only [FMap.set_apply] at hx
        split at hx
        · cases hx
          rw [AMap.get_set] at hi
          split at hi
          · cases hi; exact Nat.lt_succ_self _
          · exact hlt (h.sb s m i q hm hi)
        · exact hlt (h.sb x m' i q hx hi)
      · intro t' p hp
        simp only at hp
        split at hp
        · rw [AMap.get_set] at hp
          split at hp
          · cases hp; exact Nat.lt_succ_self _
          · exact hlt (h.rb t' p hp)
        · exact hlt (h.rb t' p hp)
      · intro t' p hp
        simp only at hp
        split at hp
        · rw [AMap.get_set] at hp
          split at hp
          · cases hp; exact Nat.lt_succ_self _
          · exact hlt (h.wb t' p hp)
        · exact hlt (h.wb t' p hp)
      · simp only [hid]; rfl

theorem remap_isEmpty {K V L W : Type} (f : K → L) (g : V → W) (m : AMap K V) : (AMap.remap f g m).isEmpty = m.isEmpty := by
  cases m <;> rfl

theorem del_wc (h : Alike P f d a b) (k : Str) : b.wc.del k = (a.wc.del k).remap id (· + d) := by
  rw [h.wc]; exact AMap.del_remap (f := id) (g := (· + d)) id_inj a.wc k

theorem del_proc (h : Alike P f d a b) (k t : Str) : b.byProc.del k t = (a.byProc.del k t).map (· + d) := by
  simp only [FMap.del_apply]
  split
  · rfl
  · exact h.proc t

theorem Alike.unregister (h : Alike P f d a b) (s r i : Nat) :
    Alike P f d (unregister a s r i).1 (unregister b s r (f i)).1 ∧
      (unregister b s r (f i)).2 = (unregister a s r i).2.map fun x => (renameMsg f x.1, x.2) := by
  have e1 := h.bys s
  simp only [Dealer.unregister, e1]
  cases hm : a.bySession s with
  | none => exact ⟨h, rfl⟩
  | some m =>
    simp only [Option.map_some, AMap.get_remap (f := f) (g := (· + d)) h.inj m i, remap_isEmpty]
    split
    · exact ⟨h, rfl⟩
    · cases hi : m.get i with
      | none => exact ⟨h, rfl⟩
      | some p =>
        have hp := h.sb s m i p hm hi
        have hh := h.heap p hp
        simp only [Option.map_some, hh]
        refine ⟨?_, rfl⟩
        have hobj : ∀ q, q < a.next → _ := fun q hq => h.hset p { a.heap p with registrants := (a.heap p).registrants.filter (· ≠ s) } q hq
        have hreg : ((a.heap p).shift f).registrants = (a.heap p).registrants := rfl
        simp only [hreg]
        split
        · refine { h with heap := hobj, bys := ?_, sb := ?_, proc := fun t => del_proc h _ t, wc := ?_, tb := ?_, wb := ?_ }
          · intro x
            simp only [FMap.set_apply]
            split
            · simp only [Option.map_some]
              exact congrArg some (AMap.del_remap (f := f) (g := (· + d)) h.inj m i)
            · exact h.bys x
          · have hm' : ((a.heap p).shift f).mtch = (a.heap p).mtch := rfl
            have hp' : ((a.heap p).shift f).procedure = (a.heap p).procedure := rfl
            simp only [del_wc h, hm', hp']
            split
            · rfl
            · exact h.wc
          · intro t q hq
            simp only [FMap.del_apply] at hq
            split at hq
            · cases hq
            · exact h.tb t q hq
          · intro x m' j q hx hj
            simp only [FMap.set_apply] at hx
            split at hx
            · cases hx
              rw [AMap.get_del] at hj
              split at hj
              · cases hj
              · exact h.sb s m j q hm hj
            · exact h.sb x m' j q hx hj
          · simp only
            split
            · exact del_bound h.wb
            · exact h.wb
        · exact { h with heap := hobj }

/-- Two dealers alike, or both calls failed in the same way. -/
def AlikeRes (P : Nat × Nat → Prop) (f : Nat → Nat) (d : Nat) : Res State → Res State → Prop
  | .ok a, .ok b => Alike P f d a b
  | .err, .err => True
  | .panic, .panic => True
  | _, _ => False

theorem Alike.removeStep (h : Alike P f d a b) (s p : Nat) (hp : p < a.next) :
    AlikeRes P f d (removeStep s a p) (removeStep s b (p + d)) := by
  have e := h.proc (a.heap p).procedure
  have e' : (b.heap (p + d)).procedure = (a.heap p).procedure := by rw [h.heap p hp]; rfl
  simp only [Dealer.removeStep, e', e]
  cases hq : a.byProc (a.heap p).procedure with
  | none => exact h
  | some q =>
    simp only [Option.map_some]
    have hq' := h.tb _ q hq
    rw [h.heap q hq']
    have hc : ((a.heap q).shift f).callees = (a.heap q).callees := rfl
    have hr : ((a.heap q).shift f).registrants = (a.heap q).registrants := rfl
    have hm : ((a.heap q).shift f).mtch = (a.heap q).mtch := rfl
    have hpr : ((a.heap q).shift f).procedure = (a.heap q).procedure := rfl
    rw [hc]
    cases surgery s (a.heap q).callees.length 0 (a.heap q).callees (a.heap q).callees.length with
    | err => trivial
    | panic => trivial
    | ok cs =>
      simp only [Res.bind_ok, hr, hm, hpr]
      refine { h with heap := fun x hx => h.hset q { a.heap q with registrants := (a.heap q).registrants.filter (· ≠ s), callees := cs } x hx
                      proc := ?_, wc := ?_, tb := ?_, wb := ?_ }
      · intro t
        simp only
        split
        · exact del_proc h _ t
        · exact h.proc t
      · simp only [del_wc h]
        split
        · rfl
        · exact h.wc
      · intro t x hx
        simp only at hx
        split at hx
        · simp only [FMap.del_apply] at hx
          split at hx
          · cases hx
          · exact h.tb t x hx
        · exact h.tb t x hx
      · simp only
        split
        · exact del_bound h.wb
        · exact h.wb

theorem Alike.removeLoop (h : Alike P f d a b) (s : Nat) : ∀ (ps : List Nat), (∀ p ∈ ps, p < a.next) →
    AlikeRes P f d (removeLoop s a ps) (removeLoop s b (ps.map (· + d))) := by
  intro ps
  induction ps generalizing a b with
  | nil => intro _; exact h
  | cons p ps ih =>
    intro hb
    have hs := h.removeStep s p (hb p List.mem_cons_self)
    simp only [List.map_cons, Dealer.removeLoop]
    cases ha : Dealer.removeStep s a p with
    | ok a' =>
      cases hb' : Dealer.removeStep s b (p + d) with
      | ok b' =>
        rw [ha, hb'] at hs
        refine ih hs fun q hq => ?_
        rw [(removeStep_invByCall ha).2]
        exact hb q (List.mem_cons_of_mem _ hq)
      | err => rw [ha, hb'] at hs; exact hs.elim
      | panic => rw [ha, hb'] at hs; exact hs.elim
    | err =>
      cases hb' : Dealer.removeStep s b (p + d) with
      | ok b' => rw [ha, hb'] at hs; exact hs.elim
      | err => trivial
      | panic => rw [ha, hb'] at hs; exact hs.elim
    | panic =>
      cases hb' : Dealer.removeStep s b (p + d) with
      | ok b' => rw [ha, hb'] at hs; exact hs.elim
      | err => rw [ha, hb'] at hs; exact hs.elim
      | panic => trivial

theorem Alike.remove (h : Alike P f d a b) (s : Nat) (order : List Nat) :
    Alike P f d (removeSession a s order).1 (removeSession b s (order.map f)).1 ∧
      (removeSession b s (order.map f)).2 = (removeSession a s order).2 := by
  simp only [removeSession, h.sess]
  cases hx : a.sessions s with
  | none => exact ⟨h, rfl⟩
  | some x =>
    simp only
    have hm : (b.bySession s).getD [] = AMap.remap f (· + d) ((a.bySession s).getD []) := by
      rw [h.bys]; cases a.bySession s <;> rfl
    have hbd : ∀ i p, ((a.bySession s).getD []).get i = some p → p < a.next := by
      intro i p hp
      cases hs : a.bySession s with
      | none => rw [hs] at hp; cases hp
      | some m => rw [hs] at hp; exact h.sb s m i p hs hp
    rw [hm]
    revert hbd
    generalize (a.bySession s).getD [] = m
    intro hbd
    simp only [AMap.keys_remap, arrange_map f h.inj, List.filterMap_map]
    have hf : (AMap.remap f (· + d) m).get ∘ f = fun i => (m.get i).map (· + d) :=
      funext fun i => AMap.get_remap (f := f) (g := (· + d)) h.inj m i
    have hf' : (arrange order m.keys).filterMap (fun i => (m.get i).map (· + d)) = ((arrange order m.keys).filterMap m.get).map (· + d) := by
      rw [List.map_filterMap]
    rw [hf, hf']
    have hl := h.removeLoop s ((arrange order m.keys).filterMap m.get) (by
      intro p hp
      obtain ⟨i, -, hi⟩ := List.mem_filterMap.1 hp
      exact hbd i p hi)
    revert hl
    generalize Dealer.removeLoop s a ((arrange order m.keys).filterMap m.get) = x
    generalize Dealer.removeLoop s b (((arrange order m.keys).filterMap m.get).map (· + d)) = y
    intro hl
    cases x with
    | ok x =>
      cases y with
      | ok y =>
        have hl : Alike P f d x y := hl
        refine ⟨{ hl with sess := by simp only [hl.sess], bys := ?_, sb := ?_ }, rfl⟩
        · intro x'
          simp only [FMap.del_apply]
          split
          · rfl
          · exact hl.bys x'
        · intro x' m' j q hx hj
          simp only [FMap.del_apply] at hx
          split at hx
          · cases hx
          · exact hl.sb x' m' j q hx hj
      | err => exact hl.elim
      | panic => exact hl.elim
    | err =>
      cases y with
      | ok y => exact hl.elim
      | err => exact ⟨h, rfl⟩
      | panic => exact hl.elim
    | panic =>
      cases y with
      | ok y => exact hl.elim
      | err => exact hl.elim
      | panic => exact ⟨h, rfl⟩

theorem Alike.lookup (h : Alike P f d a b) (order : List Str) (t : Str) :
    lookup w order b t = (lookup w order a t).map (· + d) ∧ ∀ p, lookup w order a t = some p → p < a.next := by
  simp only [Dealer.lookup, h.proc, h.tree, h.wc, longestPrefix_remap, firstWildcard_remap]
  cases ht : a.byProc t with
  | some p =>
    have hp := h.tb t p ht
    simp only [Option.map_some, h.heap p hp, Reg.shift]
    split
    · cases hl : longestPrefix a.tree t with
      | none => exact ⟨rfl, fun q hq => by cases hq; exact hp⟩
      | some q =>
        obtain ⟨k, -, hk, -⟩ := longestPrefix_some hl
        exact ⟨rfl, fun q' hq => by cases hq; exact h.rb k q hk⟩
    · exact ⟨rfl, fun q hq => by cases hq; exact hp⟩
  | none =>
    simp only [Option.map_none]
    cases hl : longestPrefix a.tree t with
    | some q =>
      obtain ⟨k, -, hk, -⟩ := longestPrefix_some hl
      exact ⟨rfl, fun q' hq => by cases hq; exact h.rb k q hk⟩
    | none =>
      refine ⟨rfl, fun q hq => ?_⟩
      obtain ⟨k, -, hk⟩ := firstWildcard_some hq
      exact h.wb k q hk

theorem Alike.call (h : Alike P f d a b) (hg : b.idGen < maxID) (s r : Nat) (o : GoMap) (t : Str) (x : GoSlice) (k : GoMap) (bin : Bin)
    (order : List Str) (rnd : Nat) (hP : o.flag (str "progress") = true → ¬P (s, r)) :
    Alike P f d (call w a s r o t x k bin order rnd).1 (call w b s r o t x k bin order rnd).1 ∧
      (call w b s r o t x k bin order rnd).2 = (call w a s r o t x k bin order rnd).2.map fun y => (renameMsg f y.1, y.2) := by
  obtain ⟨hl, hlb⟩ := h.lookup (w := w) order t
  have hgb := nextID_small hg
  have hga : nextID a.idGen = (a.idGen + 1, a.idGen + 1) := nextID_small (by have := h.le; omega)
  have hid : b.idGen + 1 = f (a.idGen + 1) := (h.gen 0).symm
  simp only [Dealer.call, hl]
  cases hp : Dealer.lookup w order a t with
  | none => exact ⟨h, rfl⟩
  | some p =>
    have hpn := hlb p hp
    have hh := h.heap p hpn
    have hr : ((a.heap p).shift f).registrants = (a.heap p).registrants := rfl
    have hpk : pick ((a.heap p).shift f) rnd = pick (a.heap p) rnd := rfl
    have hri : ((a.heap p).shift f).id = f (a.heap p).id := rfl
    simp only [Option.map_some, hh, hr, hpk, hri]
    split
    · exact ⟨h, rfl⟩
    · cases hpick : pick (a.heap p) rnd with
      | err => exact ⟨h, rfl⟩
      | panic => exact ⟨h, rfl⟩
      | ok y =>
        obtain ⟨callee, nc⟩ := y
        simp only [h.det, h.sess]
        -- the freshness of the invocation is the same
        have hfresh : ((b.invByCall (s, r)).isNone || !o.flag optProgress) = ((a.invByCall (s, r)).isNone || !o.flag optProgress) := by
          cases hf : o.flag optProgress with
          | false => simp
          | true => rw [h.ibc _ (hP hf)]; cases a.invByCall (s, r) <;> rfl
        have hinv : (if ((a.invByCall (s, r)).isNone || !o.flag optProgress) = true then (nextID b.idGen).2 else (b.invByCall (s, r)).getD 0) =
            f (if ((a.invByCall (s, r)).isNone || !o.flag optProgress) = true then (nextID a.idGen).2 else (a.invByCall (s, r)).getD 0) := by
          split
          · rw [hgb, hga]; exact hid
          · rename_i hf
            simp only [Bool.or_eq_true, Bool.not_eq_true', not_or, Option.isNone_iff_eq_none, Bool.not_eq_false] at hf
            rw [h.ibc _ (hP hf.2)]
            cases hi : a.invByCall (s, r) with
            | none => exact absurd hi hf.1
            | some i => rfl
        rw [hfresh, hinv]
        have hal : Alike P f d
            { a with
              heap := Wamp.hset a.heap p { a.heap p with nextCallee := nc }
              idGen := if ((a.invByCall (s, r)).isNone || !o.flag optProgress) = true then (nextID a.idGen).1 else a.idGen
              pending := if ((a.invByCall (s, r)).isNone || !o.flag optProgress) = true then
                  a.pending.set (if ((a.invByCall (s, r)).isNone || !o.flag optProgress) = true then (nextID a.idGen).2 else (a.invByCall (s, r)).getD 0)
                    ⟨r, s, callee, o.flag optProgress, o.flag optReceiveProgress⟩ else a.pending
              invByCall := if ((a.invByCall (s, r)).isNone || !o.flag optProgress) = true then
                  a.invByCall.set (s, r) (if ((a.invByCall (s, r)).isNone || !o.flag optProgress) = true then (nextID a.idGen).2 else (a.invByCall (s, r)).getD 0)
                else a.invByCall }
            { b with
              sessions := a.sessions
              details := a.details
              heap := Wamp.hset b.heap (p + d) { (a.heap p).shift f with nextCallee := nc }
              idGen := if ((a.invByCall (s, r)).isNone || !o.flag optProgress) = true then (nextID b.idGen).1 else b.idGen
              pending := if ((a.invByCall (s, r)).isNone || !o.flag optProgress) = true then
                  b.pending.set (f (if ((a.invByCall (s, r)).isNone || !o.flag optProgress) = true then (nextID a.idGen).2 else (a.invByCall (s, r)).getD 0))
                    ⟨r, s, callee, o.flag optProgress, o.flag optReceiveProgress⟩ else b.pending
              invByCall := if ((a.invByCall (s, r)).isNone || !o.flag optProgress) = true then
                  b.invByCall.set (s, r) (f (if ((a.invByCall (s, r)).isNone || !o.flag optProgress) = true then (nextID a.idGen).2 else (a.invByCall (s, r)).getD 0))
                else b.invByCall } := by
          cases hf : ((a.invByCall (s, r)).isNone || !o.flag optProgress) with
          | false => exact { h with sess := rfl, det := rfl, heap := fun q hq => h.hset p { a.heap p with nextCallee := nc } q hq }
          | true =>
            simp only [if_true, hgb, hga]
            refine { h with sess := rfl, det := rfl, heap := fun q hq => h.hset p { a.heap p with nextCallee := nc } q hq,
                             gen := h.next_gen, le := Nat.succ_le_succ h.le, pen := ?_, ibc := ?_, ibp := ?_ }
            · intro i hi
              simp only [AMap.get_set, show ∀ x y, f x = f y ↔ x = y from fun x y => ⟨h.inj x y, congrArg f⟩]
              split
              · rfl
              · exact h.pen i hi
            · intro y hy
              simp only [FMap.set_apply]
              split
              · rfl
              · exact h.ibc y hy
            · intro y i hy hi
              simp only [FMap.set_apply] at hi
              split at hi
              · cases hi; omega
              · exact h.ibp y i hy hi
        split
        · exact ⟨hal, rfl⟩
        · cases a.sessions callee with
          | none => exact ⟨hal, rfl⟩
          | some z =>
            simp only
            split
            · exact ⟨hal, rfl⟩
            · exact ⟨hal, rfl⟩

theorem Alike.finish (h : Alike P f d a b) (i : Nat) :
    Alike P f d { a with pending := a.pending.del i } { b with pending := b.pending.del (f i) } := by
  refine { h with pen := ?_ }
  intro j hj
  simp only [AMap.get_del, show ∀ x y, f x = f y ↔ x = y from fun x y => ⟨h.inj x y, congrArg f⟩]
  split
  · rfl
  · exact h.pen j hj

theorem Alike.yield (h : Alike P f d a b) (i : Nat) (hi : 1 ≤ i) (o : GoMap) (x : GoSlice) (k : GoMap) (bin : Bin) :
    Alike P f d (yield a i o x k bin).1 (yield b (f i) o x k bin).1 ∧
      (yield b (f i) o x k bin).2 = (yield a i o x k bin).2.map fun y => (renameMsg f y.1, y.2) := by
  simp only [Dealer.yield, h.pen i hi, h.sess]
  cases a.pending.get i with
  | none => exact ⟨h, rfl⟩
  | some p =>
    simp only
    have hal : Alike P f d (if (p.receiveProgress && o.flag optProgress) = true then a else { a with pending := a.pending.del i })
        (if (p.receiveProgress && o.flag optProgress) = true then b else { b with sessions := a.sessions, pending := b.pending.del (f i) }) := by
      split
      · exact h
      · exact { h.finish i with sess := rfl }
    cases a.sessions p.callerID with
    | none => exact ⟨hal, rfl⟩
    | some z =>
      simp only
      split
      · exact ⟨hal, rfl⟩
      · exact ⟨hal, rfl⟩

theorem Alike.error (h : Alike P f d a b) (t i : Nat) (hi : 1 ≤ i) (o : GoMap) (u : Str) (x : GoSlice) (k : GoMap) :
    Alike P f d (error a t i o u x k).1 (error b t (f i) o u x k).1 ∧
      (error b t (f i) o u x k).2 = (error a t i o u x k).2.map fun y => (renameMsg f y.1, y.2) := by
  simp only [Dealer.error, h.pen i hi]
  split
  · exact ⟨h, rfl⟩
  · cases a.pending.get i with
    | none => exact ⟨h, rfl⟩
    | some p => exact ⟨h.finish i, rfl⟩

theorem shift_unit {f : Nat → Nat} {r : Res Unit} : (r.map fun _ => Out.unit).map (renameOut f) = r.map fun _ => Out.unit := by
  cases r <;> rfl

theorem shift_msg {f : Nat → Nat} {r : Res (Msg × Nat)} :
    (r.map fun x => Out.msg x.1 x.2).map (renameOut f) = (r.map fun x => (renameMsg f x.1, x.2)).map fun x => Out.msg x.1 x.2 := by
  cases r <;> rfl

theorem Alike.step {h0 : List Event} (h : Alike (fun x => ∃ e ∈ h0, called x.1 x.2 e = true) f d a b) (hg : b.idGen < maxID) (op : Op)
    (ho : forward h0 op) :
    Alike (fun x => ∃ e ∈ h0, called x.1 x.2 e = true) f d (step w a op).1 (step w b (renameOp f op)).1 ∧
      (step w b (renameOp f op)).2 = (step w a op).2.map (renameOut f) := by
  cases op with
  | add x =>
    obtain ⟨h1, h2⟩ := h.add x
    exact ⟨h1, by simp only [renameOp, Dealer.step, h2, shift_unit]⟩
  | remove s o =>
    obtain ⟨h1, h2⟩ := h.remove s o
    exact ⟨h1, by simp only [renameOp, Dealer.step, h2, shift_unit]⟩
  | has t =>
    refine ⟨h, ?_⟩
    simp only [renameOp, Dealer.step, hasProcedure, h.proc, Res.map_ok]
    cases ht : a.byProc t with
    | none => rfl
    | some p => simp only [Option.map_some, h.heap p (h.tb t p ht)]; rfl
  | disclose on => exact ⟨{ h with det := rfl }, rfl⟩
  | receive s m order rnd =>
    cases m with
    | call r o p x k bin =>
      obtain ⟨h1, h2⟩ := h.call (w := w) hg s r o p x k bin order rnd (by
        intro hf he
        obtain ⟨e, he1, he2⟩ := he
        rw [ho hf e he1] at he2; cases he2)
      refine ⟨h1, ?_⟩
      simp only [renameOp, Dealer.step, receive, h2, shift_msg]
    | yield i o x k bin =>
      obtain ⟨h1, h2⟩ := h.yield i ho o x k bin
      refine ⟨h1, ?_⟩
      simp only [renameOp, Dealer.step, receive, h2, shift_msg]
    | register r o t =>
      obtain ⟨h1, h2⟩ := h.register hg s r o t
      refine ⟨h1, ?_⟩
      simp only [renameOp, Dealer.step, receive, h2, shift_msg]
    | unregister r i =>
      obtain ⟨h1, h2⟩ := h.unregister s r i
      refine ⟨h1, ?_⟩
      simp only [renameOp, Dealer.step, receive, h2, shift_msg]
    | error t i o u x k =>
      obtain ⟨h1, h2⟩ := h.error t i ho o u x k
      refine ⟨h1, ?_⟩
      simp only [renameOp, Dealer.step, receive, h2, shift_msg]
    | _ => exact ⟨h, rfl⟩

theorem alike_replies {h0 h : List Event} (hh : Hist w h b) (ha : Alike (fun x => ∃ e ∈ h0, called x.1 x.2 e = true) f d a b) (ops : List Op)
    (ho : ∀ op ∈ ops, forward h0 op) (hlen : h.length + ops.length ≤ 2 ^ 53) :
    replies w b (ops.map (renameOp f)) = (replies w a ops).map (Res.map (renameOut f)) := by
  induction ops generalizing h a b with
  | nil => rfl
  | cons op ops ih =>
    simp only [List.length_cons] at hlen
    have hg : b.idGen < maxID := by
      have := (hist_rinv hh (by show _ ≤ 2 ^ 53; omega)).gen
      show _ < 2 ^ 53
      omega
    obtain ⟨h1, h2⟩ := ha.step (w := w) hg op (ho op List.mem_cons_self)
    simp only [List.map_cons, replies, h2]
    have next : (Dealer.step w b (renameOp f op)).2 ≠ .panic →
        replies w (Dealer.step w b (renameOp f op)).1 (ops.map (renameOp f)) = (replies w (Dealer.step w a op).1 ops).map (Res.map (renameOut f)) :=
      fun hnp => ih (hh.step (renameOp f op) hnp) h1 (fun op' h' => ho op' (List.mem_cons_of_mem _ h')) (by simp only [List.length_cons]; omega)
    cases hr : (Dealer.step w a op).2 with
    | panic => rfl
    | ok y => simp only [Res.map_ok]; rw [next (by rw [h2, hr]; exact fun e => by cases e)]
    | err => simp only [Res.map_err]; rw [next (by rw [h2, hr]; exact fun e => by cases e)]

theorem alike_init {h : List Event} (hh : Hist w h b) (hlen : h.length ≤ 2 ^ 53) (hn : ∀ s, ¬attached h s) (hH : ∀ p, Held p h)
    (hp : ∀ p, ¬everPrefix h p) :
    Alike (fun x => ∃ e ∈ h, called x.1 x.2 e = true) (· + b.idGen) b.next (autoDisclose init (disclosed h)) b := by
  have hS := hist_sinv hh
  have hC := hist_cinv hh hlen
  have hI := fun p => hist_hinv hh hlen (hH p)
  have hb : ∀ s, b.bySession s = none := by
    intro s
    have h1 := hS.bys s
    have h2 := hn s
    cases hs : b.bySession s with
    | none => rfl
    | some m => rw [hs] at h1; exact absurd h1.symm h2
  have ht : ∀ t, b.byProc t = none := by
    intro t
    cases ht : b.byProc t with
    | none => rfl
    | some p =>
      obtain ⟨r, -, -, -, -, -, hne⟩ := (hI t).live p ht
      obtain ⟨s, hs⟩ := List.exists_mem_of_ne_nil _ hne
      obtain ⟨m, hm, -⟩ := (hI t).held p s ht hs
      rw [hb s] at hm; cases hm
  refine { heap := fun p hp => absurd hp (Nat.not_lt_zero p), next := (Nat.zero_add _).symm, proc := ht, bys := hb, sess := ?_, tree := ?_
           wc := ?_, pen := ?_, ibc := ?_, ibp := ?_, det := hS.det, gen := fun k => by show 0 + 1 + k + b.idGen = b.idGen + 1 + k; omega
           le := Nat.zero_le _, inj := add_inj _, tb := ?_, sb := ?_, rb := ?_, wb := ?_ }
  · funext s
    rw [hS.sess]
    have := hn s
    cases hs : session h s with
    | none => rfl
    | some x => exact absurd (by simp [attached, hs]) this
  · refine map_get_nil fun t => ?_
    cases hg : b.tree.get t with
    | none => rfl
    | some p => exact absurd ((hI t).tre.1 ⟨p, hg⟩) (hp t)
  · refine map_get_nil fun t => ?_
    cases hg : b.wc.get t with
    | none => rfl
    | some p => exact nomatch ((hI t).wl p hg).1.symm.trans (ht t)
  · intro i hi
    cases hg : b.pending.get (i + b.idGen) with
    | none => rfl
    | some p => have := (hC.pen _ p hg).2.1; omega
  · intro x hx
    rw [hist_invByCall hh x.1 x.2 fun e he => by
      cases hc : called x.1 x.2 e with
      | false => rfl
      | true => exact absurd ⟨e, he, hc⟩ hx]
    rfl
  · intro x i _ hi; cases hi
  · intro t p hp; cases hp
  · intro s m i p hp; cases hp
  · intro t p hp; cases hp
  · intro t p hp; cases hp

/-- **C123** After every history that leaves nobody attached, in which no prefix pattern was ever registered and every UNREGISTER
came from a member of the registration: for some `c`, whatever calls are made from then on that do not refer to calls of the past, the dealer answers
as a new one does, except that all registration and invocation IDs are larger by `c` and that `AutoDiscloseCaller` keeps its
setting.  What is missing are the histories and calls left out here, for which it fails (`C123_stale_prefix`, `C123_stale_pattern`,
`C123_stale_call`). -/
theorem C123_as_new_partial {h : List Event} (hh : Hist w h b) (hn : ∀ s, ¬attached h s) (hH : ∀ p, Held p h) (hp : ∀ p, ¬everPrefix h p) :
    ∃ c, ∀ ops : List Op, h.length + ops.length ≤ 2 ^ 53 → (∀ op ∈ ops, forward h op) → likeNew w h b c ops :=
  ⟨b.idGen, fun ops hlen ho => alike_replies hh (alike_init hh (by omega) hn hH hp) ops ho hlen⟩

/-! ### Examples -/

/-- The session that a call adds. -/
def added (e : Event) : Option Nat :=
  match e.op with
  | .add x => some x.id
  | _ => none

theorem nobody {h : List Event} (hc : (h.filterMap added).all (fun s => (session h s).isNone) = true) : ∀ s, ¬attached h s := by
  have key : ∀ (h : List Event) s, attached h s → s ∈ h.filterMap added := by
    intro h
    induction h with
    | nil => intro s hs; cases hs
    | cons e h ih =>
      intro s hs
      have keep : attached h s → s ∈ (e :: h).filterMap added := by
        intro hs
        rw [List.filterMap_cons]
        split
        · exact ih s hs
        · exact List.mem_cons_of_mem _ (ih s hs)
      unfold attached session at hs
      split at hs
      · cases hs
      · split at hs
        · rename_i heq hx
          subst hx; cases heq
          simp [added]
        · rename_i heq _; cases heq; exact keep hs
      · split at hs
        · cases hs
        · rename_i heq _; cases heq; exact keep hs
      · rename_i heq; cases heq; exact keep hs
  intro s hs
  have := List.all_eq_true.1 hc s (key h s hs)
  rw [attached] at hs
  cases hx : session h s with
  | none => rw [hx] at hs; cases hs
  | some x => rw [hx] at this; cases this

/-- The IDs in a result. -/
def ids : Res Out → List Nat
  | .ok (.msg (.registered _ i) _) => [i]
  | .ok (.msg (.invocation i g _ _ _ _) _) => [i, g]
  | _ => []

theorem ids_shift (c : Nat) (r : Res Out) : ids (r.map (renameOut (· + c))) = (ids r).map (· + c) := by
  cases r with
  | ok x =>
    cases x with
    | msg m s => cases m <;> rfl
    | _ => rfl
  | err => rfl
  | panic => rfl

/-- If the calls do not mention IDs, the IDs in the answers show the difference. -/
theorem unlike {h : List Event} {b : State} {c : Nat} {ops : List Op} (hs : ops.map (renameOp (· + c)) = ops) {x y : List (List Nat)}
    (hx : (replies w b ops).map ids = x) (hy : (replies w (step w init (.disclose (disclosed h))).1 ops).map ids = y)
    (hne : x ≠ y.map (·.map (· + c))) : ¬likeNew w h b c ops := by
  intro hl
  apply hne
  rw [likeNew, hs] at hl
  rw [← hx, ← hy, hl, List.map_map, List.map_map]
  congr 1
  funext r
  exact ids_shift c r

/-- A wildcard matcher for the examples. -/
def star : Str → Str → Bool := fun _ p => p == str "*"

/-- **C123 is false** after a prefix pattern was registered: session 1 registered the prefix "a" and left; a CALL for "ab" does not reach the
wildcard registration of session 2. -/
theorem C123_stale_prefix : ∃ h b, Hist star h b ∧ (∀ s, ¬attached h s) ∧ (∀ p, Held p h) ∧
    ∃ ops, (∀ op ∈ ops, forward h op) ∧ ∀ c, ¬likeNew star h b c ops := by
  refine ⟨_, _, hist_run [.add (who 1), regPattern 1 "a" "prefix", .remove 1 []] (by decide +kernel), nobody (by decide +kernel), ?_,
    [.add (who 2), regPattern 2 "*" "wildcard", callOf 2 7 "ab"], ?_, ?_⟩
  · exact fun _ => trivial
  · intro op hop
    simp only [List.mem_cons, List.not_mem_nil, or_false] at hop
    rcases hop with rfl | rfl | rfl
    · trivial
    · trivial
    · intro hf; cases hf
  · intro c
    exact unlike rfl (x := [[], [2], []]) (y := [[], [1], [2, 1]]) (by decide +kernel) (by decide +kernel) (by simp)

/-- **C123 is false** for calls that were never finished: session 1 called its own procedure and left; when it comes back with the same
session ID, its progressive CALL with the same request ID goes out under the old invocation ID. -/
theorem C123_stale_call : ∃ h b, Hist star h b ∧ (∀ s, ¬attached h s) ∧ (∀ p, Held p h) ∧ (∀ p, ¬everPrefix h p) ∧
    ∃ ops, ∀ c, ¬likeNew star h b c ops := by
  refine ⟨_, _, hist_run [.add (who 1), reg 1 "p", callOf 1 7 "p", .remove 1 []] (by decide +kernel), nobody (by decide +kernel), ?_, ?_,
    [.add (who 1), reg 1 "p", callWith 1 7 "p" "progress"], ?_⟩
  · exact fun _ => trivial
  · rintro p (⟨-, -, hx⟩ | hx)
    · cases hx
    · exact hx
  · intro c
    refine unlike rfl (x := [[], [3], [2, 3]]) (y := [[], [1], [2, 1]]) (by decide +kernel) (by decide +kernel) ?_
    simp
    omega

/-- **C123 is false** after an UNREGISTER by someone who is not a member: session 1 unregistered "*" by the ID of an earlier registration, which it
had left before, and the wildcard pattern stays when it has gone. -/
theorem C123_stale_pattern : ∃ h b, Hist star h b ∧ (∀ s, ¬attached h s) ∧ (∀ p, ¬everPrefix h p) ∧
    ∃ ops, (∀ op ∈ ops, forward h op) ∧ ∀ c, ¬likeNew star h b c ops := by
  refine ⟨_, _, hist_run [.add (who 1), .add (who 2), regWith 1 "*" "first", regWith 2 "*" "first", unreg 1 1, unreg 2 1,
    regPattern 1 "*" "wildcard", unreg 1 1, .remove 1 [], .remove 2 []] (by decide +kernel), nobody (by decide +kernel), ?_,
    [.add (who 3), reg 3 "x", callOf 3 7 "ab", reg 3 "y"], ?_, ?_⟩
  · rintro p (⟨-, -, hx⟩ | ⟨-, -, hx⟩ | ⟨-, -, hx⟩ | hx)
    · exact absurd hx (by decide)
    · exact absurd hx (by decide)
    · exact absurd hx (by decide)
    · exact hx
  · intro op hop
    simp only [List.mem_cons, List.not_mem_nil, or_false] at hop
    rcases hop with rfl | rfl | rfl | rfl
    · trivial
    · trivial
    · intro hf; cases hf
    · trivial
  · intro c
    refine unlike rfl (x := [[], [3], [], [5]]) (y := [[], [1], [], [2]]) (by decide +kernel) (by decide +kernel) ?_
    simp
    omega

/-- Sessions 1 and 2 used the dealer and left; a call of session 1 was never answered. -/
def past : List Op := [.add (who 1), .add (who 2), regWith 1 "p" "first", regWith 2 "p" "first", regPattern 2 "*" "wildcard", callOf 1 7 "p",
  yieldOf 1 3, callWith 2 8 "p" "progress", .disclose true, .remove 2 [], .remove 1 []]

/-- What sessions do afterwards. -/
def future : List Op := [.add (who 2), .add (who 3), reg 2 "p", callWith 3 1 "p" "progress", callWith 3 1 "p" "progress", yieldOf 2 2,
  callOf 3 2 "x", unreg 2 1, callOf 3 3 "p", .remove 2 []]

example : ∃ h b, Hist star h b ∧ (∀ s, ¬attached h s) ∧ (∀ p, Held p h) ∧ (∀ p, ¬everPrefix h p) ∧ disclosed h = true ∧
    (∀ op ∈ future, forward h op) ∧
    (replies star b (future.map (renameOp (· + 4)))).map ids = [[], [], [5], [6, 5], [6, 5], [], [], [], [], []] ∧
    (replies star (step star init (.disclose true)).1 future).map ids = [[], [], [1], [2, 1], [2, 1], [], [], [], [], []] := by
  refine ⟨_, _, hist_run past (by decide +kernel), nobody (by decide +kernel), fun _ => trivial, ?_, by decide +kernel, ?_, by decide +kernel, by decide +kernel⟩
  · rintro p (⟨-, -, hx⟩ | ⟨-, -, hx⟩ | ⟨-, -, hx⟩ | hx)
    · exact absurd hx (by decide)
    · exact absurd hx (by decide)
    · exact absurd hx (by decide)
    · exact hx
  · intro op hop
    simp only [future, List.mem_cons, List.not_mem_nil, or_false] at hop
    rcases hop with rfl | rfl | rfl | rfl | rfl | rfl | rfl | rfl | rfl | rfl
    · trivial
    · trivial
    · trivial
    · exact fun _ => List.all_eq_true.1 (by decide +kernel : (run star past).all (fun e => !called 3 1 e) = true) |> fun h e he => by simpa using h e he
    · exact fun _ => List.all_eq_true.1 (by decide +kernel : (run star past).all (fun e => !called 3 1 e) = true) |> fun h e he => by simpa using h e he
    · exact Nat.le_of_ble_eq_true rfl
    · intro hf; cases hf
    · trivial
    · intro hf; cases hf
    · trivial

end Wamp.Dealer
