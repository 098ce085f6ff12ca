import Verif.Model.Lock
/-!
# Mutual exclusion gives atomicity
-/
namespace Wamp.Lock
variable {S L M : Type}

@[simp] theorem upd_same {α : Type} (f : Nat → α) (t : Nat) (a : α) : upd f t a t = a := by simp [upd]
theorem upd_other {α : Type} (f : Nat → α) {t u : Nat} (a : α) (h : u ≠ t) : upd f t a u = f u := by
  simp [upd, h]

/-- Run calls one after the other, each without interruption. -/
def seqRun (o : Obj S L M) : S → List M → List L × S
  | s, [] => ([], s)
  | s, m :: ms =>
    let r := o.atomic s m
    let q := seqRun o r.1 ms
    (r.2 :: q.1, q.2)

theorem seqRun_snoc (o : Obj S L M) (s : S) (ms : List M) (m : M) :
    seqRun o s (ms ++ [m]) =
      ((seqRun o s ms).1 ++ [(o.atomic (seqRun o s ms).2 m).2], (o.atomic (seqRun o s ms).2 m).1) := by
  induction ms generalizing s with
  | nil => simp [seqRun]
  | cons a as ih => simp [seqRun, ih]

/-- The shared data after the completed calls, executed one after the other in completion order. -/
def seqState (o : Obj S L M) (s : S) (log : List (Done L M)) : S := (seqRun o s (log.map Done.call)).2

/-- What the holder of the mutex (if any) has done so far. -/
def HolderOK (o : Obj S L M) (s : S) (c : Cfg S L M) : Prop :=
  match c.holder with
  | none => c.shared = seqState o s c.log ∧ ∀ t m rest l, c.thr t ≠ .running m rest l
  | some t => (∃ m pre rest l, c.thr t = .running m rest l ∧ o.body m = pre ++ rest ∧
        (c.shared, l) = pre.foldl (fun x f => f x) (seqState o s c.log, o.entry m)) ∧
      ∀ u, u ≠ t → ∀ m rest l, c.thr u ≠ .running m rest l

theorem holder_of_running {o : Obj S L M} {s : S} {c : Cfg S L M} (h : HolderOK o s c) {t m rest l}
    (hr : c.thr t = .running m rest l) : c.holder = some t := by
  unfold HolderOK at h
  split at h
  · exact absurd hr (h.2 t m rest l)
  · rename_i u hu
    by_cases e : t = u
    · subst e; exact hu
    · exact absurd hr (h.2 t e m rest l)

theorem reach_inv {o : Obj S L M} {s : S} {c : Cfg S L M} (h : Reach o s c) :
    HolderOK o s c ∧ c.log.map Done.ret = (seqRun o s (c.log.map Done.call)).1 := by
  induction h with
  | init => simp [HolderOK, Cfg.init, seqState, seqRun]
  | step c c' _ hs ih =>
    obtain ⟨hh, hl⟩ := ih
    cases hs with
    | call t m hidle =>
      refine ⟨?_, hl⟩
      unfold HolderOK at hh ⊢
      split at hh <;> rename_i e <;> simp only [e]
      · refine ⟨hh.1, fun u m' rest l => ?_⟩
        by_cases hu : u = t
        · subst hu; simp
        · simp [upd_other _ _ hu, hh.2]
      · rename_i v
        obtain ⟨⟨m', pre, rest, l, h1, h2, h3⟩, h4⟩ := hh
        have hvt : v ≠ t := by intro e'; subst e'; simp [hidle] at h1
        refine ⟨⟨m', pre, rest, l, by simp [upd_other _ _ hvt, h1], h2, h3⟩, fun u hu m' rest l => ?_⟩
        by_cases hu' : u = t
        · subst hu'; simp
        · simpa [upd_other _ _ hu'] using h4 u hu m' rest l
    | acquire t m hw hn =>
      refine ⟨?_, hl⟩
      unfold HolderOK at hh ⊢
      simp only [hn] at hh
      refine ⟨⟨m, [], o.body m, o.entry m, by simp, by simp, by simp [hh.1]⟩, fun u hu m' rest l => ?_⟩
      simpa [upd_other _ _ hu] using hh.2 u m' rest l
    | micro t m f rest l hr =>
      refine ⟨?_, hl⟩
      have hold := holder_of_running hh hr
      unfold HolderOK at hh ⊢
      simp only [hold] at hh ⊢
      obtain ⟨⟨m', pre, rest', l', h1, h2, h3⟩, h4⟩ := hh
      rw [hr] at h1
      simp only [Thr.running.injEq] at h1
      obtain ⟨rfl, rfl, rfl⟩ := h1
      refine ⟨⟨m, pre ++ [f], rest, (f (c.shared, l)).2, by simp, by simp [h2], ?_⟩, fun u hu m' rest l => ?_⟩
      · rw [List.foldl_append, ← h3]; rfl
      · simpa [upd_other _ _ hu] using h4 u hu m' rest l
    | release t m l hr =>
      have hold := holder_of_running hh hr
      unfold HolderOK at hh ⊢
      simp only [hold] at hh ⊢
      obtain ⟨⟨m', pre, rest', l', h1, h2, h3⟩, h4⟩ := hh
      rw [hr] at h1
      simp only [Thr.running.injEq] at h1
      obtain ⟨rfl, rfl, rfl⟩ := h1
      have hb : o.atomic (seqState o s c.log) m = (c.shared, l) := by
        simp only [List.append_nil] at h2
        rw [Obj.atomic, h2, h3]
      refine ⟨⟨?_, fun u m' rest l => ?_⟩, ?_⟩
      · simp [seqState, seqRun_snoc]
        simp only [seqState] at hb
        rw [hb]
      · by_cases hu : u = t
        · subst hu; simp
        · simpa [upd_other _ _ hu] using h4 u hu m' rest l
      · simp only [List.map_append, List.map_cons, List.map_nil, seqRun_snoc, hl]
        simp only [seqState] at hb
        rw [hb]

end Wamp.Lock
